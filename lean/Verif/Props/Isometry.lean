import Verif.Props.Box
import Verif.Props.Infinity
import Mathlib.LinearAlgebra.Matrix.NonsingularInverse
import Mathlib.Data.Matrix.Mul
import Mathlib.Tactic.NormNum
import Mathlib.Tactic.FinCases
import Mathlib.Tactic.IntervalCases
import Mathlib.Tactic.LinearCombination

/-!
# C114: answers do not depend on the choice of the axes

Points and query are moved by a map that keeps distances; trees are built over the points before and after the move,
with any options.
-/

namespace Pico.Props

open Pico Spec

/-! ## Specification -/

/-- The same point of the circle: the coordinates differ by a whole number of turns. -/
def WholeTurns {α : Type} [Ring α] (x y : α) : Prop := ∃ k : ℤ, y = x + k

/-- No two of the first `n` points are equally far from the query. -/
def NoTies {α : Type} (n : Nat) (dist : Nat → α) : Prop := ∀ i < n, ∀ j < n, dist i = dist j → i = j

section Generic
variable {α : Type} [LinearOrder α] [Zero α] [Add α] [Sub α] {d d' : Nat} {β β' : Type}

/-- The two trees give the same answers to `q` and `q'`: the same distances, and the same neighbors except where two
points are equally far. -/
structure SameNeighbors (T : KdTree α d β) (q : Pt α d) (T' : KdTree α d' β') (q' : Pt α d') (n : Nat)
    (dist : Nat → α) : Prop where
  nearest : ∀ a b, (T.searchNn q a).distance = (T'.searchNn q' b).distance
  nearest_eq : NoTies n dist → ∀ a b, T.searchNn q a = T'.searchNn q' b
  knn : ∀ k, 0 < k → ∀ a b, ∃ out out', T.searchKnn q k a = .ok out ∧ T'.searchKnn q' k b = .ok out' ∧
    out.map Neighbor.distance = out'.map Neighbor.distance ∧ (NoTies n dist → out = out')
  radius : ∀ (s s' : StdSort (Neighbor α)) r a b m m',
    (T.searchRadius s q r a m).Perm (T'.searchRadius s' q' r b m')

omit [LinearOrder α] [Zero α] [Add α] [Sub α] in
theorem neighbor_eq {n : Nat} {dist : Nat → α} (h : NoTies n dist) {a b : Neighbor α} (ha : a ∈ Spec.all n dist)
    (hb : b ∈ Spec.all n dist) (e : a.distance = b.distance) : a = b := by
  simp only [Spec.all, List.mem_map, List.mem_range] at ha hb
  obtain ⟨i, hi, rfl⟩ := ha
  obtain ⟨j, hj, rfl⟩ := hb
  simp only at e
  rw [h i hi j hj e]

omit [LinearOrder α] [Zero α] [Add α] [Sub α] in
theorem neighbors_eq {n : Nat} {dist : Nat → α} (h : NoTies n dist) : ∀ {l l' : List (Neighbor α)},
    (∀ a ∈ l, a ∈ Spec.all n dist) → (∀ a ∈ l', a ∈ Spec.all n dist) →
    l.map Neighbor.distance = l'.map Neighbor.distance → l = l'
  | [], [], _, _, _ => rfl
  | [], _ :: _, _, _, e => by simp at e
  | _ :: _, [], _, _, e => by simp at e
  | a :: l, b :: l', hl, hl', e => by
    simp only [List.map_cons, List.cons.injEq] at e
    rw [neighbor_eq h (hl a List.mem_cons_self) (hl' b List.mem_cons_self) e.1,
      neighbors_eq h (fun x hx => hl x (List.mem_cons_of_mem _ hx)) (fun x hx => hl' x (List.mem_cons_of_mem _ hx)) e.2]

/-- Exact searches over points at the same distances give the same answers. -/
theorem sameNeighbors {T : KdTree α d β} {q : Pt α d} {T' : KdTree α d' β'} {q' : Pt α d'} {n : Nat} {dist : Nat → α}
    (h : ExactAt T q) (h' : ExactAt T' q') (hn : T.n = n) (hn' : T'.n = n) (hpos : 0 < n)
    (hd : ∀ i < n, T.metric.dist q (T.pts i) = dist i) (hd' : ∀ i < n, T'.metric.dist q' (T'.pts i) = dist i)
    (hb : ∀ i < n, dist i < T.num.big) (hb' : ∀ i < n, dist i < T'.num.big) : SameNeighbors T q T' q' n dist := by
  subst hn
  have hall : ∀ f : Nat → α, (∀ i < T.n, f i = dist i) → Spec.all T.n f = Spec.all T.n dist := fun f hf =>
    List.map_congr_left fun i hi => by rw [hf i (List.mem_range.1 hi)]
  have e1 := hall _ hd
  have e2 := hall _ hd'
  have big : ∀ i < T.n, T.metric.dist q (T.pts i) < T.num.big := fun i hi => by rw [hd i hi]; exact hb i hi
  have big' : ∀ i < T'.n, T'.metric.dist q' (T'.pts i) < T'.num.big := fun i hi => by
    rw [hn'] at hi; rw [hd' i hi]; exact hb' i hi
  have nn : ∀ a, IsNN T.n dist (T.searchNn q a) := fun a => by
    have x := h.nn hpos big a
    exact ⟨x.valid, x.distance.trans (hd _ x.valid), fun j hj => (x.nearest j hj).trans_eq (hd j hj)⟩
  have nn' : ∀ a, IsNN T.n dist (T'.searchNn q' a) := fun a => by
    have x := h'.nn (by omega) big' a
    rw [hn'] at x
    exact ⟨x.valid, x.distance.trans (hd' _ x.valid), fun j hj => (x.nearest j hj).trans_eq (hd' j hj)⟩
  have mem : ∀ {a : Neighbor α}, IsNN T.n dist a → a ∈ Spec.all T.n dist := fun {a} x => by
    simp only [Spec.all, List.mem_map, List.mem_range]
    exact ⟨a.index, x.valid, by rw [← x.distance]⟩
  refine ⟨fun a b => isNN_unique (nn a) (nn' b),
    fun ht a b => neighbor_eq ht (mem (nn a)) (mem (nn' b)) (isNN_unique (nn a) (nn' b)), fun k hk a b => ?_,
    fun s s' r a b m m' => ?_⟩
  · obtain ⟨o, x1, x2⟩ := h.knn hpos big k hk a
    obtain ⟨o', y1, y2⟩ := h'.knn (by omega) big' k hk b
    rw [hn'] at y2
    have x3 : IsKnn T.n k dist o := ⟨x2.length, x2.sorted, e1 ▸ x2.rest⟩
    have y3 : IsKnn T.n k dist o' := ⟨y2.length, y2.sorted, e2 ▸ y2.rest⟩
    have e : o.map Neighbor.distance = o'.map Neighbor.distance := by rw [x3.map_distance, y3.map_distance]
    refine ⟨o, o', x1, y1, e, fun ht => neighbors_eq ht ?_ ?_ e⟩
    · obtain ⟨rest, p, -⟩ := x3.rest
      exact fun c hc => p.mem_iff.1 (List.mem_append_left _ hc)
    · obtain ⟨rest, p, -⟩ := y3.rest
      exact fun c hc => p.mem_iff.1 (List.mem_append_left _ hc)
  · have x := (h.radius s r a m).1
    have y := (h'.radius s' r b m').1
    rw [hn'] at y
    unfold IsRadius at x y
    rw [e1] at x
    rw [e2] at y
    exact x.trans y.symm

end Generic

section Moves
variable {α : Type} [CommRing α] [LinearOrder α] [IsStrictOrderedRing α] {d : Nat} {N : Num α}
  {pts pts' : Nat → Pt α d} {n : Nat} {o o' : BuildOpts α d} {fuel fuel' : Nat}

/-- C114 for every Euclidean metric: points and query may be replaced by others at the same distances. -/
theorem c114_euclidean {M M' : Metric α d} (hM : EuclideanAdditive M) (hM' : EuclideanAdditive M')
    {T T' : KdTree α d (Branch1 α d)}
    (h : KdTree.make (euclideanTag α d) M N pts n o fuel = .ok T) (hR : Representable N pts n o)
    (h' : KdTree.make (euclideanTag α d) M' N pts' n o' fuel' = .ok T') (hR' : Representable N pts' n o') (hn : 0 < n)
    (q q' : Pt α d) (hd : ∀ i < n, M'.dist q' (pts' i) = M.dist q (pts i))
    (hbig : ∀ i < n, M.dist q (pts i) < N.big) :
    SameNeighbors T q T' q' n fun i => M.dist q (pts i) := by
  have e := exactAt_euclidean hM h hR hn q
  have e' := exactAt_euclidean hM' h' hR' hn q'
  obtain ⟨-, a2, a3, a4, a5, -⟩ := KdTree.make_ok h
  obtain ⟨-, b2, b3, b4, b5, -⟩ := KdTree.make_ok h'
  exact sameNeighbors e e' a5 b5 hn (by rw [a2, a4]; exact fun _ _ => rfl) (by rw [b2, b4]; exact hd)
    (by rw [a3]; exact hbig) (by rw [b3]; exact hbig)

/-- C114 for every topological metric. -/
theorem c114_topological {M M' : Metric α d} (hM : TopologicalAdditive M) (hM' : TopologicalAdditive M')
    {T T' : KdTree α d (Branch2 α d)}
    (h : KdTree.make (topologicalTag α d) M N pts n o fuel = .ok T) (hR : Representable N pts n o)
    (h' : KdTree.make (topologicalTag α d) M' N pts' n o' fuel' = .ok T') (hR' : Representable N pts' n o') (hn : 0 < n)
    (q q' : Pt α d) (hc : CircleOk M.space pts n o q) (hc' : CircleOk M'.space pts' n o' q')
    (hd : ∀ i < n, M'.dist q' (pts' i) = M.dist q (pts i)) (hbig : ∀ i < n, M.dist q (pts i) < N.big) :
    SameNeighbors T q T' q' n fun i => M.dist q (pts i) := by
  have e := exactAt_topological hM h hR hn q hc
  have e' := exactAt_topological hM' h' hR' hn q' hc'
  obtain ⟨-, a2, a3, a4, a5, -⟩ := KdTree.make_ok h
  obtain ⟨-, b2, b3, b4, b5, -⟩ := KdTree.make_ok h'
  exact sameNeighbors e e' a5 b5 hn (by rw [a2, a4]; exact fun _ _ => rfl) (by rw [b2, b4]; exact hd)
    (by rw [a3]; exact hbig) (by rw [b3]; exact hbig)

/-! ## Turning and mirroring: `metric_l2_squared` -/

omit [LinearOrder α] [IsStrictOrderedRing α] in
/-- A matrix with orthonormal columns followed by a translation keeps the Euclidean distance. -/
theorem l2Sq_orthogonal {Q : Matrix (Fin d) (Fin d) α} (hQ : Q.transpose * Q = 1) (t x y : Fin d → α) :
    Spec.l2Sq (fun j => Q.mulVec x j + t j) (fun j => Q.mulVec y j + t j) = Spec.l2Sq x y := by
  have key : ∀ v : Fin d → α, ∑ j, (Q.mulVec v j) ^ 2 = ∑ j, (v j) ^ 2 := by
    intro v
    have h1 : dotProduct (Q.mulVec v) (Q.mulVec v) = dotProduct v v := by
      rw [Matrix.dotProduct_mulVec, Matrix.vecMul_mulVec, hQ, Matrix.vecMul_one]
    simpa only [dotProduct, pow_two] using h1
  unfold Spec.l2Sq
  have h2 := key (fun j => x j - y j)
  rw [← h2]
  refine Finset.sum_congr rfl fun j _ => ?_
  have h3 : Q.mulVec (fun j => x j - y j) j = Q.mulVec x j - Q.mulVec y j := by
    have := congrFun (Matrix.mulVec_sub Q x y) j
    exact this
  rw [h3]
  ring

/-- C114 for `metric_l2_squared`: points and query are turned or mirrored by an orthogonal matrix and shifted. -/
theorem c114_l2 {T T' : KdTree α d (Branch1 α d)} {Q : Matrix (Fin d) (Fin d) α} (hQ : Q.transpose * Q = 1)
    (t : Fin d → α) (h : KdTree.make (euclideanTag α d) (metricL2Sq α d) N pts n o fuel = .ok T)
    (hR : Representable N pts n o)
    (h' : KdTree.make (euclideanTag α d) (metricL2Sq α d) N (fun i j => Q.mulVec (pts i) j + t j) n o' fuel' = .ok T')
    (hR' : Representable N (fun i j => Q.mulVec (pts i) j + t j) n o') (hn : 0 < n) (q : Pt α d)
    (hbig : ∀ i < n, Spec.l2Sq q (pts i) < N.big) :
    SameNeighbors T q T' (fun j => Q.mulVec q j + t j) n fun i => Spec.l2Sq q (pts i) := by
  have := c114_euclidean additive_l2Sq additive_l2Sq h hR h' hR' hn q (fun j => Q.mulVec q j + t j)
    (fun i _ => by rw [metricL2Sq_dist, metricL2Sq_dist, l2Sq_orthogonal hQ])
    (fun i hi => by rw [metricL2Sq_dist]; exact hbig i hi)
  simpa only [metricL2Sq_dist] using this

/-! ## Swapping, mirroring and shifting axes: all Euclidean metrics -/

/-- Axis `j` of the moved point is axis `σ j` of the point, mirrored where `s j`, and shifted by `t j`. -/
def moveAxes (σ : Equiv.Perm (Fin d)) (s : Fin d → Bool) (t : Fin d → α) (x : Pt α d) : Pt α d :=
  fun j => (if s j then -x (σ j) else x (σ j)) + t j

omit [IsStrictOrderedRing α] in
theorem dist_moveAxes {M : Metric α d} (hM : EuclideanAdditive M) (σ : Equiv.Perm (Fin d)) (s : Fin d → Bool)
    (t : Fin d → α) (x y : Pt α d) : M.dist (moveAxes σ s t x) (moveAxes σ s t y) = M.dist x y := by
  rw [hM.dist_eq, hM.dist_eq, ← Equiv.sum_comp σ fun j => M.one (x j - y j)]
  refine Finset.sum_congr rfl fun j _ => ?_
  have : |moveAxes σ s t x j - moveAxes σ s t y j| = |x (σ j) - y (σ j)| := by
    unfold moveAxes
    by_cases hs : s j
    · rw [if_pos hs, if_pos hs, abs_sub_comm (x (σ j))]
      congr 1
      ring
    · rw [if_neg hs, if_neg hs]
      congr 1
      ring
  exact le_antisymm (hM.one_mono _ _ this.le) (hM.one_mono _ _ this.ge)

/-- C114 for every Euclidean metric that is a sum over the axes: axes are swapped, mirrored and shifted. -/
theorem c114_axes {M : Metric α d} (hM : EuclideanAdditive M) (σ : Equiv.Perm (Fin d)) (s : Fin d → Bool)
    (t : Fin d → α) {T T' : KdTree α d (Branch1 α d)}
    (h : KdTree.make (euclideanTag α d) M N pts n o fuel = .ok T) (hR : Representable N pts n o)
    (h' : KdTree.make (euclideanTag α d) M N (fun i => moveAxes σ s t (pts i)) n o' fuel' = .ok T')
    (hR' : Representable N (fun i => moveAxes σ s t (pts i)) n o') (hn : 0 < n) (q : Pt α d)
    (hbig : ∀ i < n, M.dist q (pts i) < N.big) :
    SameNeighbors T q T' (moveAxes σ s t q) n fun i => M.dist q (pts i) :=
  c114_euclidean hM hM h hR h' hR' hn q _ (fun i _ => dist_moveAxes hM σ s t q (pts i)) hbig

/-- C114 for box search: the moved box has the moved corners, exchanged on mirrored axes. -/
theorem c114_box {M : Metric α d} (σ : Equiv.Perm (Fin d)) (s : Fin d → Bool)
    (t : Fin d → α) {T T' : KdTree α d (Branch1 α d)}
    (h : KdTree.make (euclideanTag α d) M N pts n o fuel = .ok T) (hb : BoundsContain pts n o.bounds)
    (h' : KdTree.make (euclideanTag α d) M N (fun i => moveAxes σ s t (pts i)) n o' fuel' = .ok T')
    (hb' : BoundsContain (fun i => moveAxes σ s t (pts i)) n o'.bounds) (mn mx : Pt α d) (p p' : List Nat) :
    (T.searchBox mn mx p).Perm
      (T'.searchBox (fun j => if s j then moveAxes σ s t mx j else moveAxes σ s t mn j)
        (fun j => if s j then moveAxes σ s t mn j else moveAxes σ s t mx j) p') := by
  have a := c08_box h hb mn mx p
  have b := c08_box h' hb' (fun j => if s j then moveAxes σ s t mx j else moveAxes σ s t mn j)
        (fun j => if s j then moveAxes σ s t mn j else moveAxes σ s t mx j) p'
  refine (List.perm_ext_iff_of_nodup a.1 b.1).2 fun i => (a.2 i).trans (Iff.trans ?_ (b.2 i).symm)
  refine and_congr_right fun _ => ?_
  have axis : ∀ j, (mn (σ j) ≤ pts i (σ j) ∧ pts i (σ j) ≤ mx (σ j)) ↔
      ((if s j then moveAxes σ s t mx j else moveAxes σ s t mn j) ≤ moveAxes σ s t (pts i) j ∧
        moveAxes σ s t (pts i) j ≤ if s j then moveAxes σ s t mn j else moveAxes σ s t mx j) := by
    intro j
    unfold moveAxes
    by_cases hs : s j
    · simp only [hs, if_true, add_le_add_iff_right, neg_le_neg_iff]
      exact and_comm
    · simp only [hs, add_le_add_iff_right, Bool.false_eq_true, if_false]
  constructor
  · exact fun hx j => (axis j).1 (hx (σ j))
  · intro hx j
    have := (axis (σ.symm j)).2 (hx (σ.symm j))
    rwa [Equiv.apply_symm_apply] at this

/-! ## Turning the circle -/

theorem circle_of_sub {x y x' y' : α} (hx : 0 ≤ x ∧ x ≤ 1) (hy : 0 ≤ y ∧ y ≤ 1) (hx' : 0 ≤ x' ∧ x' ≤ 1)
    (hy' : 0 ≤ y' ∧ y' ≤ 1) {m : ℤ} (e : x' - y' = x - y + m) : Spec.circle x' y' = Spec.circle x y := by
  have h1 : (m : α) ≤ 2 := by linarith [hx'.2, hy'.1, hx.1, hy.2]
  have h2 : (-2 : α) ≤ m := by linarith [hx'.1, hy'.2, hx.2, hy.1]
  have h1 : m ≤ 2 := by exact_mod_cast h1
  have h2 : -2 ≤ m := by exact_mod_cast h2
  unfold Spec.circle
  rw [e]
  have hu : x - y ≤ 1 ∧ -1 ≤ x - y := by constructor <;> linarith [hx.1, hx.2, hy.1, hy.2]
  have hv : x - y + m ≤ 1 ∧ -1 ≤ x - y + m := by
    rw [← e]; constructor <;> linarith [hx'.1, hx'.2, hy'.1, hy'.2]
  generalize x - y = u at hu hv ⊢
  have hm : m = -2 ∨ m = -1 ∨ m = 0 ∨ m = 1 ∨ m = 2 := by omega
  rcases hm with rfl | rfl | rfl | rfl | rfl
  · have : u = 1 := by push_cast at hv; linarith [hu.1, hv.2]
    subst this
    norm_num
  · push_cast at hv ⊢
    rw [abs_of_nonpos (by linarith [hv.1] : u + -1 ≤ 0), abs_of_nonneg (by linarith [hv.2] : 0 ≤ u), min_comm]
    congr 1 <;> ring
  · simp
  · push_cast at hv ⊢
    rw [abs_of_nonneg (by linarith [hv.2] : 0 ≤ u + 1), abs_of_nonpos (by linarith [hv.1] : u ≤ 0), min_comm]
    congr 1 <;> ring
  · have : u = -1 := by push_cast at hv; linarith [hu.2, hv.1]
    subst this
    norm_num

/-- `x'` is `x` on an axis after it was mirrored (if `s`) and shifted by `t`; on a circle whole turns do not count. -/
def AxisMoved (a : OneSpace) (s : Bool) (t x x' : α) : Prop :=
  match a with
  | .r1 => x' = (if s then -x else x) + t
  | .s1 => WholeTurns ((if s then -x else x) + t) x'

theorem axisDistance_moved {a : OneSpace} {s : Bool} {t x y x' y' : α} (hx : a = .s1 → 0 ≤ x ∧ x ≤ 1)
    (hy : a = .s1 → 0 ≤ y ∧ y ≤ 1) (hx' : a = .s1 → 0 ≤ x' ∧ x' ≤ 1) (hy' : a = .s1 → 0 ≤ y' ∧ y' ≤ 1)
    (h : AxisMoved a s t x x') (h' : AxisMoved a s t y y') : axisDistance a x' y' = axisDistance a x y := by
  cases a with
  | r1 =>
    simp only [AxisMoved] at h h'
    simp only [axisDistance, h, h']
    cases s
    · simp
    · rw [abs_sub_comm x]
      congr 1
      simp only [if_true]
      ring
  | s1 =>
    obtain ⟨k, rfl⟩ := h
    obtain ⟨l, rfl⟩ := h'
    simp only [axisDistance]
    cases s
    · refine circle_of_sub (hx rfl) (hy rfl) (hx' rfl) (hy' rfl) (m := k - l) ?_
      simp only [Bool.false_eq_true, if_false, Int.cast_sub]
      ring
    · rw [circle_comm x]
      refine circle_of_sub (hy rfl) (hx rfl) (hx' rfl) (hy' rfl) (m := k - l) ?_
      simp only [if_true, Int.cast_sub]
      ring

/-- C114 for every topological metric: axes are mirrored and shifted, circles turned. -/
theorem c114_turn {M : Metric α d} (hM : TopologicalAdditive M) (s : Fin d → Bool) (t : Fin d → α)
    {T T' : KdTree α d (Branch2 α d)}
    (h : KdTree.make (topologicalTag α d) M N pts n o fuel = .ok T) (hR : Representable N pts n o)
    (h' : KdTree.make (topologicalTag α d) M N pts' n o' fuel' = .ok T') (hR' : Representable N pts' n o') (hn : 0 < n)
    (q q' : Pt α d) (hc : CircleOk M.space pts n o q) (hc' : CircleOk M.space pts' n o' q')
    (hp : ∀ i < n, ∀ j, AxisMoved (M.space j) (s j) (t j) (pts i j) (pts' i j))
    (hq : ∀ j, AxisMoved (M.space j) (s j) (t j) (q j) (q' j)) (hbig : ∀ i < n, M.dist q (pts i) < N.big) :
    SameNeighbors T q T' q' n fun i => M.dist q (pts i) := by
  refine c114_topological hM hM h hR h' hR' hn q q' hc hc' (fun i hi => ?_) hbig
  rw [hM.dist_eq q' _ fun j hj => ⟨hc'.query j hj, hc'.points i hi j hj⟩,
    hM.dist_eq q _ fun j hj => ⟨hc.query j hj, hc.points i hi j hj⟩]
  exact Finset.sum_congr rfl fun j _ => congrArg M.one
    (axisDistance_moved (hc.query j) (hc.points i hi j) (hc'.query j) (hc'.points i hi j) (hq j) (hp i hi j))

/-- The pose `x'` is the pose `x` seen from a frame that is turned by the angle with cosine `c` and sine `s` in the
plane, shifted by `t`, and whose angles are `t 2` larger. -/
def PoseMoved (c s : α) (t x x' : Pt α 3) : Prop :=
  x' 0 = c * x 0 - s * x 1 + t 0 ∧ x' 1 = s * x 0 + c * x 1 + t 1 ∧ WholeTurns (x 2 + t 2) (x' 2)

/-- C114 for `metric_se2_squared`: rigid motions of the plane. -/
theorem c114_se2 {pts pts' : Nat → Pt α 3} {o o' : BuildOpts α 3} {c s : α} (hcs : c ^ 2 + s ^ 2 = 1) (t : Pt α 3)
    {T T' : KdTree α 3 (Branch2 α 3)}
    (h : KdTree.make (topologicalTag α 3) (metricSE2Sq α) N pts n o fuel = .ok T) (hR : Representable N pts n o)
    (h' : KdTree.make (topologicalTag α 3) (metricSE2Sq α) N pts' n o' fuel' = .ok T')
    (hR' : Representable N pts' n o') (hn : 0 < n) (q q' : Pt α 3) (hc : CircleOk se2Axes pts n o q)
    (hc' : CircleOk se2Axes pts' n o' q') (hp : ∀ i < n, PoseMoved c s t (pts i) (pts' i)) (hq : PoseMoved c s t q q')
    (hbig : ∀ i < n, Spec.se2Sq q (pts i) < N.big) :
    SameNeighbors T q T' q' n fun i => Spec.se2Sq q (pts i) := by
  have hd : ∀ (x : Pt α 3) (y : Pt α 3), (metricSE2Sq α).dist x y = Spec.se2Sq x y := fun x y =>
    congrFun (se2_fun x fun _ => y) 0
  have := c114_topological topological_se2 topological_se2 h hR h' hR' hn q q' (se2_space (α := α) ▸ hc)
    (se2_space (α := α) ▸ hc') (fun i hi => ?_) (fun i hi => by rw [hd]; exact hbig i hi)
  · simpa only [hd] using this
  · rw [hd, hd]
    obtain ⟨q0, q1, k, q2⟩ := hq
    obtain ⟨p0, p1, l, p2⟩ := hp i hi
    have hcirc : Spec.circle (q' 2) (pts' i 2) = Spec.circle (q 2) (pts i 2) := by
      refine circle_of_sub (hc.query 2 rfl) (hc.points i hi 2 rfl) (hc'.query 2 rfl) (hc'.points i hi 2 rfl)
        (m := k - l) ?_
      rw [q2, p2, Int.cast_sub]
      ring
    unfold Spec.se2Sq
    rw [hcirc, q0, q1, p0, p1]
    linear_combination ((q 0 - pts i 0) ^ 2 + (q 1 - pts i 1) ^ 2) * hcs

/-! ## Box search on the circle -/

/-- How far one has to go forwards from `a` to `x`, for coordinates in `[0, 1)`. -/
def ahead (a x : α) : α := if x < a then x - a + 1 else x - a

theorem onArc_iff {lo hi x : α} (_ : 0 ≤ lo ∧ lo < 1) (h2 : 0 ≤ hi ∧ hi < 1) (h3 : 0 ≤ x ∧ x < 1) :
    OnArc lo hi x ↔ ahead lo x ≤ ahead lo hi := by
  unfold OnArc ahead
  rcases le_or_gt lo hi with h | h
  · rw [if_neg (not_lt.2 h)]
    simp only [h, not_lt.2 h, forall_const, false_implies, and_true]
    split
    · rename_i hx
      constructor
      · exact fun a => absurd a.1 (not_le.2 hx)
      · intro a; linarith [h3.1, h2.2]
    · rename_i hx
      constructor
      · intro a; linarith [a.2]
      · exact fun a => ⟨not_lt.1 hx, by linarith⟩
  · rw [if_pos h]
    simp only [h, not_le.2 h, forall_const, false_implies, true_and]
    split
    · rename_i hx
      constructor
      · intro a
        have : x ≤ hi := not_lt.1 fun b => a ⟨b, hx⟩
        linarith
      · rintro a ⟨b, -⟩; linarith
    · rename_i hx
      constructor
      · intro a; linarith [h3.2, h2.1]
      · exact fun a b => hx b.2

theorem ahead_turn {a x a' x' t : α} (ha : 0 ≤ a ∧ a < 1) (hx : 0 ≤ x ∧ x < 1) (ha' : 0 ≤ a' ∧ a' < 1)
    (hx' : 0 ≤ x' ∧ x' < 1) (h : WholeTurns (a + t) a') (h' : WholeTurns (x + t) x') : ahead a' x' = ahead a x := by
  obtain ⟨k, rfl⟩ := h
  obtain ⟨l, rfl⟩ := h'
  have h1 : ((l - k : ℤ) : α) < 2 := by push_cast; linarith [hx'.2, ha'.1, hx.1, ha.2]
  have h2 : ((-2 : ℤ) : α) < ((l - k : ℤ) : α) := by push_cast; linarith [hx'.1, ha'.2, hx.2, ha.1]
  have h1 : l - k < 2 := by exact_mod_cast h1
  have h2 : -2 < l - k := by exact_mod_cast h2
  have hm : l = k - 1 ∨ l = k ∨ l = k + 1 := by omega
  unfold ahead
  rcases hm with rfl | rfl | rfl
  · push_cast at *
    rw [if_pos (by linarith [hx.2, ha.1]), if_neg (by intro; linarith [hx'.1, ha'.2])]
    ring
  · by_cases hlt : x < a
    · rw [if_pos hlt, if_pos (by linarith)]
      ring
    · rw [if_neg hlt, if_neg (by linarith [not_lt.1 hlt])]
      ring
  · push_cast at *
    rw [if_neg (by intro; linarith [hx.1, ha.2]), if_pos (by linarith [hx'.2, ha'.1])]
    ring

/-- C114 for box search with `metric_so2` (partial: no coordinate is 1, see `c114_arc_false`): turning the points and
the arc does not change the answer. -/
theorem c114_arc_partial {pts pts' : Nat → Pt α 1} {o o' : BuildOpts α 1} {T T' : KdTree α 1 (Branch2 α 1)} (t : α)
    (h : KdTree.make (topologicalTag α 1) (metricSO2 α) N pts n o fuel = .ok T) (hb : BoundsContain pts n o.bounds)
    (h' : KdTree.make (topologicalTag α 1) (metricSO2 α) N pts' n o' fuel' = .ok T')
    (hb' : BoundsContain pts' n o'.bounds)
    (hp : ∀ i < n, (0 ≤ pts i 0 ∧ pts i 0 < 1) ∧ (0 ≤ pts' i 0 ∧ pts' i 0 < 1) ∧ WholeTurns (pts i 0 + t) (pts' i 0))
    (mn mx mn' mx' : Pt α 1)
    (hmn : (0 ≤ mn 0 ∧ mn 0 < 1) ∧ (0 ≤ mn' 0 ∧ mn' 0 < 1) ∧ WholeTurns (mn 0 + t) (mn' 0))
    (hmx : (0 ≤ mx 0 ∧ mx 0 < 1) ∧ (0 ≤ mx' 0 ∧ mx' 0 < 1) ∧ WholeTurns (mx 0 + t) (mx' 0)) (p p' : List Nat) :
    (T.searchBox mn mx p).Perm (T'.searchBox mn' mx' p') := by
  have a := c09_box_so2 h hb mn mx p
  have b := c09_box_so2 h' hb' mn' mx' p'
  refine (List.perm_ext_iff_of_nodup a.1 b.1).2 fun i => (a.2 i).trans (Iff.trans ?_ (b.2 i).symm)
  refine and_congr_right fun hi => ?_
  obtain ⟨p1, p2, p3⟩ := hp i hi
  dsimp only
  rw [onArc_iff hmn.1 hmx.1 p1, onArc_iff hmn.2.1 hmx.2.1 p2, ahead_turn hmn.1 p1 hmn.2.1 p2 hmn.2.2 p3,
    ahead_turn hmn.1 hmx.1 hmn.2.1 hmx.2.1 hmn.2.2 hmx.2.2]

end Moves

/-! ## Counterexamples -/

/-- Two points of the circle, and the same turned by a tenth. -/
def seam2 (t : Rat) : Nat → Pt Rat 1
  | 0 => ![t]
  | _ => ![1 / 2 + t]

/-- C114 is false for box search with `metric_so2` when a coordinate is 1: the arc from 9/10 to 1 ends in the point 0,
which is not reported.  After turning by a tenth it is. -/
theorem c114_arc_false :
    ∃ T T', KdTree.make (topologicalTag Rat 1) (metricSO2 Rat) Ref.ratNum (seam2 0) 2 (Ref.optsMedian Rat 1) 10 = .ok T ∧
      KdTree.make (topologicalTag Rat 1) (metricSO2 Rat) Ref.ratNum (seam2 (1 / 10)) 2 (Ref.optsMedian Rat 1) 10 =
        .ok T' ∧
      (∀ i < 2, WholeTurns (seam2 0 i 0 + 1 / 10) (seam2 (1 / 10) i 0)) ∧ WholeTurns (9 / 10 + 1 / 10 : Rat) 0 ∧
      WholeTurns (1 + 1 / 10 : Rat) (1 / 10) ∧
      T.searchBox ![9 / 10] ![1] [] = [] ∧ T'.searchBox ![0] ![1 / 10] [] = [0] ∧
      T.searchNn ![1] ⟨0, 0⟩ = ⟨0, 0⟩ := by
  obtain ⟨T, h, hp⟩ := Outcome.exists_of_check
    (x := KdTree.make (topologicalTag Rat 1) (metricSO2 Rat) Ref.ratNum (seam2 0) 2 (Ref.optsMedian Rat 1) 10)
    (p := fun T => decide (T.searchBox ![9 / 10] ![1] [] = [] ∧ T.searchNn ![1] ⟨0, 0⟩ = ⟨0, 0⟩)) (by decide +kernel)
  obtain ⟨T', h', hp'⟩ := Outcome.exists_of_check
    (x := KdTree.make (topologicalTag Rat 1) (metricSO2 Rat) Ref.ratNum (seam2 (1 / 10)) 2 (Ref.optsMedian Rat 1) 10)
    (p := fun T => decide (T.searchBox ![0] ![1 / 10] [] = [0])) (by decide +kernel)
  have hp := of_decide_eq_true hp
  refine ⟨T, T', h, h', ?_, ⟨-1, by norm_num⟩, ⟨-1, by norm_num⟩, hp.1, of_decide_eq_true hp', hp.2⟩
  intro i hi
  refine ⟨0, ?_⟩
  interval_cases i <;> decide +kernel

/-- C114 is false for `metric_lpinf`, whose searches are not exact (C12): mirroring one axis gives another distance,
although the distances of all points to the query are the same. -/
theorem c114_lpinf_false : let m := moveAxes (α := Rat) (d := 2) (Equiv.refl _) ![false, true] ![0, 0]
    ∃ T T', KdTree.make (euclideanTag Rat 2) (metricLPInf Rat 2) Ref.ratNum maxPts 5 (Ref.optsMedian Rat 2) 10 = .ok T ∧
      KdTree.make (euclideanTag Rat 2) (metricLPInf Rat 2) Ref.ratNum (fun i => m (maxPts i)) 5 (Ref.optsMedian Rat 2) 10 =
        .ok T' ∧
      (∀ i < 5, (metricLPInf Rat 2).dist (m ![4, 4]) (m (maxPts i)) = (metricLPInf Rat 2).dist ![4, 4] (maxPts i)) ∧
      (T.searchNn ![4, 4] ⟨0, 0⟩).distance = 3 ∧ (T'.searchNn (m ![4, 4]) ⟨0, 0⟩).distance = 2 := by
  intro m
  obtain ⟨T, h, hp⟩ := Outcome.exists_of_check
    (x := KdTree.make (euclideanTag Rat 2) (metricLPInf Rat 2) Ref.ratNum maxPts 5 (Ref.optsMedian Rat 2) 10)
    (p := fun T => decide ((T.searchNn ![4, 4] ⟨0, 0⟩).distance = 3)) (by decide +kernel)
  obtain ⟨T', h', hp'⟩ := Outcome.exists_of_check
    (x := KdTree.make (euclideanTag Rat 2) (metricLPInf Rat 2) Ref.ratNum (fun i => m (maxPts i)) 5
      (Ref.optsMedian Rat 2) 10)
    (p := fun T => decide ((T.searchNn (m ![4, 4]) ⟨0, 0⟩).distance = 2)) (by decide +kernel)
  exact ⟨T, T', h, h', by decide +kernel, of_decide_eq_true hp, of_decide_eq_true hp'⟩

/-! ## Concrete cases -/

/-- A turn by the angle with cosine 3/5. -/
def turn345 : Matrix (Fin 2) (Fin 2) Rat := Matrix.of ![![3 / 5, -4 / 5], ![4 / 5, 3 / 5]]

/-- The hypotheses of `c114_l2` hold for the five points of `maxPts` turned by `turn345` and shifted. -/
example : turn345.transpose * turn345 = 1 ∧
    ∃ T T', KdTree.make (euclideanTag Rat 2) (metricL2Sq Rat 2) Ref.ratNum maxPts 5 (Ref.optsSliding Rat 2) 10 = .ok T ∧
      KdTree.make (euclideanTag Rat 2) (metricL2Sq Rat 2) Ref.ratNum
        (fun i j => turn345.mulVec (maxPts i) j + ![1, 2] j) 5 (Ref.optsMedian Rat 2) 10 = .ok T' ∧
      SameNeighbors T ![4, 5] T' (fun j => turn345.mulVec ![4, 5] j + ![1, 2] j) 5
        (fun i => Spec.l2Sq ![4, 5] (maxPts i)) ∧ NoTies 5 (fun i => Spec.l2Sq ![4, 5] (maxPts i)) := by
  have hQ : turn345.transpose * turn345 = 1 := by decide +kernel
  obtain ⟨T, h, -⟩ := Outcome.exists_of_check
    (x := KdTree.make (euclideanTag Rat 2) (metricL2Sq Rat 2) Ref.ratNum maxPts 5 (Ref.optsSliding Rat 2) 10)
    (p := fun _ => true) (by decide +kernel)
  obtain ⟨T', h', -⟩ := Outcome.exists_of_check
    (x := KdTree.make (euclideanTag Rat 2) (metricL2Sq Rat 2) Ref.ratNum
        (fun i j => turn345.mulVec (maxPts i) j + ![1, 2] j) 5 (Ref.optsMedian Rat 2) 10)
    (p := fun _ => true) (by decide +kernel)
  refine ⟨hQ, T, T', h, h', c114_l2 hQ ![1, 2] h ?_ h' ?_ (by decide) _ (by decide +kernel), by
    unfold NoTies; decide +kernel⟩
  · exact ⟨by decide +kernel, by unfold InRange; decide +kernel, trivial, fun h => by simp [Ref.optsSliding] at h⟩
  · exact ⟨by decide +kernel, by unfold InRange; decide +kernel, trivial, fun h => by simp [Ref.optsMedian] at h⟩

/-- The poses of `Ref.poses4` in another frame. -/
def moved4 : Nat → Pt Rat 3
  | 0 => ![1, 0, 1 / 4]
  | 1 => ![1 / 5, 3 / 5, 1 / 20]
  | 2 => ![11 / 5, 8 / 5, 13 / 20]
  | _ => ![3 / 5, 14 / 5, 9 / 20]

/-- The hypotheses of `c114_se2` on the poses of `Ref.poses4`. -/
example : ∃ T T', KdTree.make (topologicalTag Rat 3) (metricSE2Sq Rat) Ref.ratNum Ref.poses4 4
      (Ref.optsSliding Rat 3) 10 = .ok T ∧
    KdTree.make (topologicalTag Rat 3) (metricSE2Sq Rat) Ref.ratNum moved4 4 (Ref.optsMedian Rat 3) 10 = .ok T' ∧
    SameNeighbors T ![0, 0, 1] T' ![1, 0, 3 / 20] 4 fun i => Spec.se2Sq ![0, 0, 1] (Ref.poses4 i) := by
  obtain ⟨T, h, -⟩ := Outcome.exists_of_check
    (x := KdTree.make (topologicalTag Rat 3) (metricSE2Sq Rat) Ref.ratNum Ref.poses4 4 (Ref.optsSliding Rat 3) 10)
    (p := fun _ => true) (by decide +kernel)
  obtain ⟨T', h', -⟩ := Outcome.exists_of_check
    (x := KdTree.make (topologicalTag Rat 3) (metricSE2Sq Rat) Ref.ratNum moved4 4 (Ref.optsMedian Rat 3) 10)
    (p := fun _ => true) (by decide +kernel)
  refine ⟨T, T', h, h', c114_se2 (c := 3 / 5) (s := 4 / 5) (by norm_num) ![1, 0, 3 / 20] h ?_ h' ?_ (by decide)
    _ _ ?_ ?_ ?_ ?_ (by decide +kernel)⟩
  · exact ⟨by decide +kernel, by unfold InRange; decide +kernel, trivial, fun h => by simp [Ref.optsSliding] at h⟩
  · exact ⟨by decide +kernel, by unfold InRange; decide +kernel, trivial, fun h => by simp [Ref.optsMedian] at h⟩
  · exact ⟨by decide +kernel, by decide +kernel, fun h => by simp [Ref.optsSliding] at h⟩
  · exact ⟨by decide +kernel, by decide +kernel, fun h => by simp [Ref.optsMedian] at h⟩
  · intro i hi
    interval_cases i
    · exact ⟨by decide +kernel, by decide +kernel, 0, by decide +kernel⟩
    · exact ⟨by decide +kernel, by decide +kernel, -1, by decide +kernel⟩
    · exact ⟨by decide +kernel, by decide +kernel, 0, by decide +kernel⟩
    · exact ⟨by decide +kernel, by decide +kernel, 0, by decide +kernel⟩
  · exact ⟨by decide +kernel, by decide +kernel, -1, by decide +kernel⟩

end Pico.Props
