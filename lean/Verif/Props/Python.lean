import Verif.Proof.Python
import Verif.Props.Array
import Verif.Props.Query

/-!
# C33, C34, C35, C37: batch queries from Python

`search` stands for the single C++ query: `T.searchKnnRange` or `T.searchKnnApproxRange · e`.
-/

namespace Pico.Props

open Pico Spec

section
variable {α τ : Type} {d : Nat}

/-- The query overwrites ranges of length `k` completely. -/
def Fills (search : Pt α d → List τ → Outcome (List τ)) (k : Nat) : Prop :=
  ∀ x s, s.length = k → ∃ r, search x s = .ok r ∧ r.length = k

section
variable [LinearOrder α] [Zero α] [Add α] [Sub α] {β : Type} (T : KdTree α d β) {k : Nat}

/-- `search_knn` does so. -/
theorem fills_knn (hk : 0 < k) : Fills T.searchKnnRange k := fun x s hs => by
  obtain ⟨r, h1, h2⟩ := searchKnnRange_length T x s (by omega)
  exact ⟨r, h1, by omega⟩

/-- Approximate `search_knn` does so. -/
theorem fills_knn_approx [One α] [Mul α] [Div α] (e : α) (hk : 0 < k) :
    Fills (fun x => T.searchKnnApproxRange x e) k := fun x s hs => by
  obtain ⟨r, h1, h2⟩ := searchKnnApproxRange_length T x e s (by omega)
  exact ⟨r, h1, by omega⟩

end

/-! ## C33: the batch equals the single queries -/

variable {Dim : Option Nat} {scalarT neighborT : DType} {zero : τ}
  {search : Pt α d → List τ → Outcome (List τ)} {pts : NArray α} {k n : Nat}
  (hv : Valid pts) (hp : Points pts n d) (hD : Dim = none ∨ Dim = some d) (hst : pts.dtype = scalarT)
include hv hp hD hst

/-- C33 (k nearest neighbors): the memory of the output consists of the results of the single queries, in
order. -/
theorem c33_knn (hs : Fills search k) :
    ∃ out, pyKnn Dim scalarT neighborT zero search pts k = .ok out ∧ out.base = 0 ∧
      out.buf.length = n * k ∧ ∀ i < n, ∀ x, IsPoint pts i x →
        ∃ r, search x (List.replicate k zero) = .ok r ∧ r.length = k ∧
          ∀ j < k, out.buf[i * k + j]? = r[j]? := by
  obtain ⟨nns, h1, h2, h3, h4, h5, -⟩ := ensureSize_default zero n pts.isC k neighborT
  obtain ⟨out, g1, g2, g3, -⟩ := pyKnnInto_core (nns := .default neighborT) (neighborT := neighborT) hv hp
    hD hst rfl h1 h2 (b := 0) h3 (by rw [h4]; simp) hs
  refine ⟨_, g1, h3, by rw [g2, h4]; simp, fun i hi x hx => ?_⟩
  obtain ⟨s, r, e1, e2, e3, e4⟩ := g3 i hi x hx
  obtain ⟨f1, f2, f3⟩ := memSlice_some e1
  have : s = List.replicate k zero := by
    refine List.ext_getElem? fun j => ?_
    by_cases hj : j < k
    · rw [f3 j hj, h4, List.getElem?_replicate, List.getElem?_replicate, if_pos hj, if_pos]
      rw [h4, List.length_replicate] at f1
      omega
    · rw [List.getElem?_eq_none (by omega), List.getElem?_eq_none (by simp; omega)]
  subst this
  exact ⟨r, e2, e3, fun j hj => by simpa using e4 j hj⟩

/-- C33 (radius): one result per query point, in order, whatever the output array held before. -/
theorem c33_radius [LinearOrder α] [Zero α] [Add α] [Sub α] {β : Type} (T : KdTree α d β)
    (sorter : StdSort (Neighbor α)) (r : α) (sort : Bool) (cells : List (List (Neighbor α))) :
    ∃ out, pyRadiusInto Dim scalarT neighborT (fun x c => T.searchRadius sorter x r c sort) pts neighborT
      cells = .ok out ∧ out.length = n ∧
      ∀ i < n, ∀ x, IsPoint pts i x → out[i]? = some (T.searchRadius sorter x r [] sort) := by
  obtain ⟨out, h1, h2, h3⟩ := pyRadiusInto_core (cells := cells) (neighborT := neighborT)
    (search := fun x c => T.searchRadius sorter x r c sort) hv hp hD hst rfl
  exact ⟨out, h1, h2, h3⟩

/-- C33 (approximate radius). -/
theorem c33_radius_approx [LinearOrder α] [Zero α] [Add α] [Sub α] [One α] [Mul α] [Div α] {β : Type}
    (T : KdTree α d β) (sorter : StdSort (Neighbor α)) (r e : α) (sort : Bool)
    (cells : List (List (Neighbor α))) :
    ∃ out, pyRadiusInto Dim scalarT neighborT (fun x c => T.searchRadiusApprox sorter x r e c sort) pts
      neighborT cells = .ok out ∧ out.length = n ∧
      ∀ i < n, ∀ x, IsPoint pts i x → out[i]? = some (T.searchRadiusApprox sorter x r e [] sort) := by
  obtain ⟨out, h1, h2, h3⟩ := pyRadiusInto_core (cells := cells) (neighborT := neighborT)
    (search := fun x c => T.searchRadiusApprox sorter x r e c sort) hv hp hD hst rfl
  exact ⟨out, h1, h2, h3⟩

/-! ## C37: boxes -/

omit hp in
/-- C37 (pairs): rows `2 i` and `2 i + 1` are the corners of box `i`; its result is that of the single query. -/
theorem c37_pairs [LinearOrder α] {β : Type} (T : KdTree α d β) (indexT : DType) {m : Nat}
    (hp : Points pts (2 * m) d) (cells : List (List Nat)) :
    ∃ out, pyBoxInto Dim scalarT indexT T.searchBox pts indexT cells = .ok out ∧ out.length = m ∧
      ∀ i < m, ∀ x y, IsPoint pts (2 * i) x → IsPoint pts (2 * i + 1) y →
        out[i]? = some (T.searchBox x y []) := by
  obtain ⟨out, h1, h2, h3⟩ := pyBoxInto_core (cells := cells) (indexT := indexT)
    (search := T.searchBox) hv hp hD hst rfl
  exact ⟨out, h1, h2, h3⟩

omit hp hD hst in
/-- C37 (odd): an odd number of corners raises. -/
theorem c37_odd (bsearch : Pt α d → Pt α d → List τ → List τ) (indexT indicesT : DType) {m : Nat}
    (hp : Points pts (2 * m + 1) d) (cells : List (List τ)) :
    pyBoxInto Dim scalarT indexT bsearch pts indicesT cells = .throws := by
  unfold pyBoxInto
  split
  · rfl
  split
  · rfl
  rcases hm : makeMap Dim pts with q | _ | _ | _ | _
  · obtain ⟨h1, -, -⟩ := c38_view hv hp hm
    simp only [Call.bind, h1]
    rw [if_pos (by omega)]
  · rfl
  all_goals
    have := (c38_accept (Dim := Dim) hv)
    by_cases h : ∃ n d, Points pts n d ∧ (Dim = none ∨ Dim = some d)
    · obtain ⟨q, hq⟩ := this.1.2 h
      rw [hm] at hq
      cases hq
    · rw [this.2 h] at hm
      cases hm

end

/-- C37 (exactness): result `i` consists of exactly the points inside of box `i`. -/
theorem c37_exact {α : Type} [LinearOrder α] [Zero α] [One α] [Add α] [Sub α] [Neg α]
    {d : Nat} {M : Metric α d} {N : Num α}
    {data : Nat → Pt α d} {np : Nat} {o : BuildOpts α d} {fuel : Nat} {T : KdTree α d (Branch1 α d)}
    (h : KdTree.make (euclideanTag α d) M N data np o fuel = .ok T)
    (hb : BoundsContain data np o.bounds) {Dim : Option Nat} {boxes : NArray α} (hv : Valid boxes)
    (hD : Dim = none ∨ Dim = some d) {m : Nat} (hp : Points boxes (2 * m) d) (indexT : DType)
    (cells : List (List Nat)) :
    ∃ out, pyBoxInto Dim boxes.dtype indexT T.searchBox boxes indexT cells = .ok out ∧ out.length = m ∧
      ∀ i < m, ∀ x y, IsPoint boxes (2 * i) x → IsPoint boxes (2 * i + 1) y →
        ∃ l, out[i]? = some l ∧ IsSelection np (fun t => InBox x y (data t)) l := by
  obtain ⟨out, h1, h2, h3⟩ := c37_pairs hv hD rfl T indexT hp cells
  exact ⟨out, h1, h2, fun i hi x y hx hy => ⟨_, h3 i hi x y hx hy, c08_box h hb x y []⟩⟩

/-! ## C33: every interleaving -/

section
variable {α τ : Type} {d : Nat}

/-- C33 (threads, k nearest neighbors): let iteration `i` be any program that accesses its own range of the
output only and, when run alone, leaves the result of query `i` there.  Every interleaving of the programs
that finishes gives the same memory as the loop; no two iterations ever are about to access the same
element; the iterations cannot run forever and can always finish. -/
theorem c33_knn_schedule (search : Pt α d → List τ → Outcome (List τ)) (q : SpaceMap α) (k base n : Nat)
    (xs : Nat → Pt α d) (hq : ∀ i < n, q.point d i = some (xs i)) (buf : List τ)
    (hb : base + n * k ≤ buf.length) (hs : Fills search k) (P : Nat → Prog τ)
    (hP : ∀ i, (P i).Within (rangeOf base k i)) (hdone : ∀ i, n ≤ i → P i = .done)
    (hrun : ∀ i < n, ∀ m, search (xs i) (readRange m (base + i * k) k) =
      .ok (readRange ((P i).run m) (base + i * k) k))
    (m : Nat → τ) (hm : ∀ a, a < buf.length → buf[a]? = some (m a)) :
    ∃ out, forRange n (knnStep search q k base) buf = .ok out ∧ out.length = buf.length ∧
      (∀ s, ParExec ⟨P, m⟩ s → s.Finished → ∀ a, a < buf.length → out[a]? = some (s.mem a)) ∧
      (∀ s, ParExec ⟨P, m⟩ s → ∀ i j a b w w', i ≠ j → (s.progs i).access = some (a, w) →
        (s.progs j).access = some (b, w') → a ≠ b) ∧
      (∃ s, ParExec ⟨P, m⟩ s ∧ s.Finished) ∧
      ∀ f : Nat → ParState τ, f 0 = ⟨P, m⟩ → ¬ ∀ t, ParStep (f t) (f (t + 1)) := by
  have hF : ∀ i j a, rangeOf base k i a → rangeOf base k j a → i = j := fun i j a => rangeOf_disjoint
  obtain ⟨out, h1, h2, h3, h4⟩ := forRange_knn search q k base xs n hq buf hb fun i _ => hs (xs i)
  refine ⟨out, h1, h2, fun s he hf a ha => ?_, fun s he i j a b w w' hij => par_no_race hF hP he hij,
    par_finishes n _ hdone, fun f hf0 => par_no_infinite n f (by rw [hf0]; exact hdone)⟩
  obtain ⟨g1, g2⟩ := par_final hF hP he hf
  dsimp only at g1 g2
  by_cases hin : ∃ i, rangeOf base k i a
  · obtain ⟨i, hr⟩ := hin
    rw [g1 i a hr]
    by_cases hi : ¬ i < n
    · rw [hdone i (by omega)]
      simp only [Prog.run]
      rw [← hm a ha]
      unfold rangeOf at hr
      have : n * k ≤ i * k := Nat.mul_le_mul_right k (by omega)
      exact h4 a (by omega)
    rw [not_not] at hi
    obtain ⟨s', r, e1, e2, e3, e4⟩ := h3 i hi
    obtain ⟨f1, f2, f3⟩ := memSlice_some e1
    have hsl : s' = readRange m (base + i * k) k := by
      refine List.ext_getElem? fun j => ?_
      by_cases hj : j < k
      · rw [f3 j hj, hm _ (by omega)]
        simp [readRange, hj]
      · rw [List.getElem?_eq_none (by omega), List.getElem?_eq_none (by rw [readRange_length]; omega)]
    have hr' := hrun i hi m
    rw [← hsl, e2, Outcome.ok.injEq] at hr'
    unfold rangeOf at hr
    obtain ⟨j, rfl⟩ : ∃ j, a = base + i * k + j := ⟨a - (base + i * k), by omega⟩
    have hj : j < k := by omega
    rw [e4 j hj, hr']
    simp [readRange, hj]
  · rw [g2 a (fun i hi => hin ⟨i, hi⟩), ← hm a ha]
    refine h4 a ?_
    by_contra hc
    push Not at hc
    have hk : 0 < k := by
      rcases Nat.eq_zero_or_pos k with rfl | h
      · omega
      · exact h
    refine hin ⟨(a - base) / k, ?_⟩
    have h5 := Nat.div_add_mod (a - base) k
    have h6 := Nat.mod_lt (a - base) hk
    rw [Nat.mul_comm] at h5
    unfold rangeOf
    omega

/-- Such programs exist. -/
theorem c33_programs (search : Pt α d → List τ → Outcome (List τ)) (k base n : Nat) (xs : Nat → Pt α d)
    (hs : Fills search k) : ∃ P : Nat → Prog τ, (∀ i, (P i).Within (rangeOf base k i)) ∧
      (∀ i, n ≤ i → P i = .done) ∧
      ∀ i < n, ∀ m, search (xs i) (readRange m (base + i * k) k) =
        .ok (readRange ((P i).run m) (base + i * k) k) := by
  have hf : ∀ i, ∃ f : List τ → List τ, ∀ s, s.length = k →
      search (xs i) s = .ok (f s) ∧ (f s).length = k := fun i => by
    have : ∀ s : List τ, ∃ r, s.length = k → search (xs i) s = .ok r ∧ r.length = k := fun s => by
      by_cases h : s.length = k
      · obtain ⟨r, hr⟩ := hs (xs i) s h
        exact ⟨r, fun _ => hr⟩
      · exact ⟨s, fun h' => absurd h' h⟩
    exact ⟨fun s => (this s).choose, fun s => (this s).choose_spec⟩
  choose f hf using hf
  refine ⟨fun i => if i < n then Prog.onRange (base + i * k) k (f i) else .done, fun i => ?_,
    fun i hi => if_neg (by omega), fun i hi m => ?_⟩
  · dsimp only
    split
    · exact Prog.onRange_within _ _ _ (fun s h => (hf i s h).2) _ fun a h1 h2 => ⟨h1, h2⟩
    · trivial
  · dsimp only
    rw [if_pos hi, Prog.onRange_run _ _ _ fun s h => (hf i s h).2]
    exact (hf i _ (readRange_length _ _ _)).1

/-- C33 (threads, radius and box): the same for loops in which iteration `i` only accesses element `i` of the
vector of results; `f i` is the effect of query `i` on that element. -/
theorem c33_cells_schedule {υ : Type} (n : Nat) (f : Nat → υ → υ) (step : Nat → List υ → Call (List υ))
    (hstep : ∀ i < n, ∀ cells : List υ, ∀ c, cells[i]? = some c → step i cells = .ok (cells.set i (f i c)))
    (cells : List υ) (hc : n ≤ cells.length) (P : Nat → Prog υ) (hP : ∀ i, (P i).Within (· = i))
    (hdone : ∀ i, n ≤ i → P i = .done) (hrun : ∀ i < n, ∀ m, (P i).run m i = f i (m i))
    (m : Nat → υ) (hm : ∀ a, a < cells.length → cells[a]? = some (m a)) :
    ∃ out, forRange n step cells = .ok out ∧ out.length = cells.length ∧
      (∀ s, ParExec ⟨P, m⟩ s → s.Finished → ∀ a, a < cells.length → out[a]? = some (s.mem a)) ∧
      (∀ s, ParExec ⟨P, m⟩ s → ∀ i j a b w w', i ≠ j → (s.progs i).access = some (a, w) →
        (s.progs j).access = some (b, w') → a ≠ b) ∧
      (∃ s, ParExec ⟨P, m⟩ s ∧ s.Finished) ∧
      ∀ g : Nat → ParState υ, g 0 = ⟨P, m⟩ → ¬ ∀ t, ParStep (g t) (g (t + 1)) := by
  have hF : ∀ i j a : Nat, a = i → a = j → i = j := fun i j a h1 h2 => h1 ▸ h2
  have hloop : ∃ out, forRange n step cells = .ok out ∧ out.length = cells.length ∧
      (∀ i < n, out[i]? = some (f i (m i))) ∧ ∀ i, n ≤ i → out[i]? = cells[i]? := by
    clear hdone hrun
    induction n with
    | zero => exact ⟨cells, rfl, rfl, fun i hi => absurd hi (by omega), fun _ _ => rfl⟩
    | succ n ih =>
      obtain ⟨out, h1, h2, h3, h4⟩ := ih (fun i hi => hstep i (by omega)) (by omega)
      have hn : out[n]? = some (m n) := by rw [h4 n le_rfl, hm n (by omega)]
      refine ⟨out.set n (f n (m n)), ?_, by simp [h2], fun i hi => ?_, fun i hi => ?_⟩
      · rw [forRange_succ, h1]
        simp only [Call.bind]
        exact hstep n (by omega) out _ hn
      · by_cases e : i = n
        · subst e
          rw [List.getElem?_set_self (by omega)]
        · rw [List.getElem?_set_ne (Ne.symm e)]
          exact h3 i (by omega)
      · rw [List.getElem?_set_ne (by omega)]
        exact h4 i (by omega)
  obtain ⟨out, h1, h2, h3, h4⟩ := hloop
  refine ⟨out, h1, h2, fun s he hf a ha => ?_, fun s he i j a b w w' hij => par_no_race hF hP he hij,
    par_finishes n _ hdone, fun g hg0 => par_no_infinite n g (by rw [hg0]; exact hdone)⟩
  obtain ⟨g1, -⟩ := par_final hF hP he hf
  dsimp only at g1
  rw [g1 a a rfl]
  by_cases hlt : a < n
  · rw [h3 a hlt]
    rw [hrun a hlt]
  · rw [h4 a (by omega), hm a ha, hdone a (by omega)]
    rfl

/-- The loop of `search_radius` is of this form. -/
theorem c33_radius_step (search : Pt α d → List τ → List τ) (q : SpaceMap α) (xs : Nat → Pt α d) (n : Nat)
    (hq : ∀ i < n, q.point d i = some (xs i)) : ∀ i < n, ∀ cells : List (List τ), ∀ c,
      cells[i]? = some c → radiusStep search q i cells = .ok (cells.set i (search (xs i) c)) := by
  intro i hi cells c hc
  simp only [radiusStep, hq i hi, hc]

/-- The loop of `search_box` is of this form. -/
theorem c33_box_step (search : Pt α d → Pt α d → List τ → List τ) (q : SpaceMap α) (xs : Nat → Pt α d)
    (n : Nat) (hq : ∀ i < 2 * n, q.point d i = some (xs i)) : ∀ i < n, ∀ cells : List (List τ), ∀ c,
      cells[i]? = some c → boxStep search q i cells =
        .ok (cells.set i (search (xs (2 * i)) (xs (2 * i + 1)) c)) := by
  intro i hi cells c hc
  have e0 : i * 2 + 0 = 2 * i := by omega
  have e1 : i * 2 + 1 = 2 * i + 1 := by omega
  simp only [boxStep, e0, e1, hq (2 * i) (by omega), hq (2 * i + 1) (by omega), hc]

end

/-! ## C34: every cell of the output is a neighbor -/

section
variable {α : Type} [Field α] [LinearOrder α] [IsStrictOrderedRing α] {d : Nat} {M : Metric α d}
  {N : Num α} {data : Nat → Pt α d} {np : Nat} {o : BuildOpts α d} {fuel : Nat}
  {T : KdTree α d (Branch1 α d)}

/-- C34 (partial: `k` at most the number of points; `metric_l1` and `metric_l2_squared`): the cells of query
`i` are its `k` nearest neighbors in order. -/
theorem c34_partial (hM : EuclideanAdditive M)
    (h : KdTree.make (euclideanTag α d) M N data np o fuel = .ok T) (hR : Representable N data np o)
    {Dim : Option Nat} {pts : NArray α} {n k : Nat} (hv : Valid pts) (hp : Points pts n d)
    (hD : Dim = none ∨ Dim = some d) (neighborT : DType) (zero : Neighbor α) (hk : 0 < k) (hkn : k ≤ np)
    (hbig : ∀ i < n, ∀ x, IsPoint pts i x → ∀ t < np, M.dist x (data t) < N.big) :
    ∃ out, pyKnn Dim pts.dtype neighborT zero T.searchKnnRange pts k = .ok out ∧
      out.buf.length = n * k ∧ ∀ i < n, ∀ x, IsPoint pts i x →
        ∃ r, IsKnn np k (fun t => M.dist x (data t)) r ∧ r.length = k ∧
          ∀ j < k, out.buf[i * k + j]? = r[j]? := by
  obtain ⟨out, h1, -, h2, h3⟩ := c33_knn (neighborT := neighborT) (zero := zero) hv hp hD rfl
    (fills_knn T hk)
  refine ⟨out, h1, h2, fun i hi x hx => ?_⟩
  obtain ⟨r, g1, g2, g3⟩ := h3 i hi x hx
  obtain ⟨r', e1, e2, e3, -⟩ := c03_range_partial hM h hR (by omega) x (hbig i hi x hx)
    (List.replicate k zero) (by simp; omega)
  rw [g1, Outcome.ok.injEq] at e1
  subst e1
  rw [List.take_of_length_le (by omega), List.length_replicate] at e3
  exact ⟨r, e3, g2, g3⟩

end

/-- One query point in a C ordered array. -/
def exQuery : NArray Int := ⟨.float32, [1, 2], [2, 1], 0, [1, 0], true, true⟩

/-- C34 is false for `k` larger than the number of points: of the four cells only two are neighbors; the
third claims that point 0 has distance 0 (its distance is 1). -/
theorem c34_false : ∃ T, KdTree.make (euclideanTag Int 2) (metricL1 Int 2) Ref.intNum Ref.pts5 2
    (Ref.optsSliding Int 2) 10 = .ok T ∧
    (∃ out, pyKnn (some 2) .float32 .neighborF ⟨0, 0⟩ T.searchKnnRange exQuery 4 = .ok out ∧
      out.buf = [⟨0, 1⟩, ⟨1, 4⟩, ⟨0, 0⟩, ⟨0, 2147483647⟩]) ∧
    (metricL1 Int 2).dist ![1, 0] (Ref.pts5 0) = 1 := by
  obtain ⟨T, h1, h2⟩ := Outcome.exists_of_check (x := KdTree.make (euclideanTag Int 2) (metricL1 Int 2)
    Ref.intNum Ref.pts5 2 (Ref.optsSliding Int 2) 10)
    (p := fun T => (pyKnn (some 2) .float32 .neighborF ⟨0, 0⟩ T.searchKnnRange exQuery 4).check fun out =>
      decide (out.buf = [⟨0, 1⟩, ⟨1, 4⟩, ⟨0, 0⟩, ⟨0, 2147483647⟩])) (by decide +kernel)
  obtain ⟨out, h3, h4⟩ := Call.exists_of_check h2
  exact ⟨T, h1, ⟨out, h3, by simpa using h4⟩, by decide +kernel⟩

/-- C34 is false for `k = 0` as well: every call with at least one query is undefined behaviour, because
`search_knn` decrements the end of an empty range. -/
theorem c34_zero_false {α : Type} [LinearOrder α] [Zero α] [Add α] [Sub α] {d : Nat} {β : Type}
    (T : KdTree α d β) {Dim : Option Nat} {pts : NArray α} {n : Nat} (hv : Valid pts) (hp : Points pts n d)
    (hD : Dim = none ∨ Dim = some d) (neighborT : DType) (zero : Neighbor α) (hn : 0 < n) :
    pyKnn Dim pts.dtype neighborT zero T.searchKnnRange pts 0 = .ub := by
  obtain ⟨q, hq, hq1, hq2, hq3, -, -, hq6⟩ := makeMap_of_points hv hp hD
  obtain ⟨x, hx, -⟩ := hq6 0 hn
  have hub : ∀ l : List Nat, l.foldl
      (fun (c : Call (List (Neighbor α))) i => c.bind (knnStep T.searchKnnRange q 0 0 i)) .ub = .ub := by
    intro l
    induction l with
    | nil => rfl
    | cons i l ih => exact ih
  have hs : knnStep T.searchKnnRange q 0 0 0 [] = .ub := by
    simp [knnStep, hx, memSlice, KdTree.searchKnnRange, knnInit, Outcome.bind, Call.ofOutcome, Call.bind]
  obtain ⟨m, rfl⟩ : ∃ m, n = m + 1 := ⟨n - 1, by omega⟩
  have hr : forRange (m + 1) (knnStep T.searchKnnRange q 0 0) [] = .ub := by
    unfold forRange
    rw [List.range_succ_eq_map, List.foldl_cons]
    simp only [Call.bind, hs]
    exact hub _
  unfold pyKnn pyKnnInto
  rw [if_neg (by simp), if_neg (by simp [NArray.default]), hq]
  simp [Call.bind, ensureSize, NArray.default, hq1, hq2, hr]

/-! ## C60: element types and read-only outputs -/

section
variable {α τ : Type} {d : Nat} {Dim : Option Nat} {scalarT neighborT indexT nnsT : DType} {zero : τ}
  {pts : NArray α} {k : Nat} {nns : NArray τ} {cells : List (List τ)}

/-- C60 (k nearest neighbors): queries or outputs of another element type and read-only outputs raise. -/
theorem c60_knn (search : Pt α d → List τ → Outcome (List τ))
    (h : pts.dtype ≠ scalarT ∨ nns.dtype ≠ neighborT ∨ nns.writeable = false) :
    pyKnnInto Dim scalarT neighborT zero search pts k nns = .throws := by
  unfold pyKnnInto
  by_cases h1 : pts.dtype ≠ scalarT
  · rw [if_pos h1]
  rw [if_neg h1]
  by_cases h2 : nns.dtype ≠ neighborT
  · rw [if_pos h2]
  rw [if_neg h2]
  have hw : nns.writeable = false := by tauto
  have hm : (∃ q, makeMap Dim pts = .ok q) ∨ makeMap Dim pts = .throws := by
    unfold makeMap
    by_cases hl : pts.shape.length ≠ 2
    · exact Or.inr (if_pos hl)
    rw [if_neg hl]
    split
    · exact Or.inr rfl
    obtain ⟨r, c, hsh⟩ := length_two (by simpa using hl)
    cases hC : pts.isC <;> simp only [NArray.innerStride, NArray.outerStride, hsh, hC] <;> simp <;>
      split <;> simp_all
  rcases hm with ⟨q, hq⟩ | hq
  · rw [hq]
    simp only [Call.bind]
    have he : ∀ a, ensureSize zero q.size q.rowMajor k nns = .ok a → a.writeable = false := by
      intro a
      unfold ensureSize NArray.resize
      split_ifs <;> intro h <;> cases h <;> exact hw
    have he' : (∃ a, ensureSize zero q.size q.rowMajor k nns = .ok a) ∨
        ensureSize zero q.size q.rowMajor k nns = .throws := by
      unfold ensureSize NArray.resize
      split_ifs <;> simp
    rcases he' with ⟨a, ha⟩ | ha
    · simp [ha, he a ha]
    · simp [ha]
  · rw [hq]
    rfl

/-- C60 (radius). -/
theorem c60_radius (search : Pt α d → List τ → List τ) (h : pts.dtype ≠ scalarT ∨ nnsT ≠ neighborT) :
    pyRadiusInto Dim scalarT neighborT search pts nnsT cells = .throws := by
  unfold pyRadiusInto
  by_cases h1 : pts.dtype ≠ scalarT
  · rw [if_pos h1]
  rw [if_neg h1, if_pos (by tauto)]

/-- C60 (box). -/
theorem c60_box (search : Pt α d → Pt α d → List τ → List τ) (h : pts.dtype ≠ scalarT ∨ nnsT ≠ indexT) :
    pyBoxInto Dim scalarT indexT search pts nnsT cells = .throws := by
  unfold pyBoxInto
  by_cases h1 : pts.dtype ≠ scalarT
  · rw [if_pos h1]
  rw [if_neg h1, if_pos (by tauto)]

end

/-- Without the check the call would write: the same call with a writeable output succeeds. -/
example : ∃ T, KdTree.make (euclideanTag Int 2) (metricL1 Int 2) Ref.intNum Ref.pts5 2
    (Ref.optsSliding Int 2) 10 = .ok T ∧
    (pyKnnInto (some 2) .float32 .neighborF ⟨0, 0⟩ T.searchKnnRange exQuery 1
      ⟨.neighborF, [1], [1], 0, [⟨0, 0⟩], true, true⟩).check (fun _ => true) = true ∧
    pyKnnInto (some 2) .float32 .neighborF ⟨0, 0⟩ T.searchKnnRange exQuery 1
      ⟨.neighborF, [1], [1], 0, [⟨0, 0⟩], false, true⟩ = .throws := by
  obtain ⟨T, h1, h2⟩ := Outcome.exists_of_check (x := KdTree.make (euclideanTag Int 2) (metricL1 Int 2)
    Ref.intNum Ref.pts5 2 (Ref.optsSliding Int 2) 10)
    (p := fun T => (pyKnnInto (some 2) .float32 .neighborF ⟨0, 0⟩ T.searchKnnRange exQuery 1
      ⟨.neighborF, [1], [1], 0, [⟨0, 0⟩], true, true⟩).check fun _ => true) (by decide +kernel)
  exact ⟨T, h1, h2, c60_knn _ (Or.inr (Or.inr rfl))⟩

/-! ## C35: layout of the output -/

section
variable {α τ : Type} {d : Nat} {Dim : Option Nat} {scalarT neighborT : DType} {zero : τ}
  {search : Pt α d → List τ → Outcome (List τ)} {pts : NArray α} {k n : Nat}

/-- Entry `j` of query `i` is where the documentation puts it. -/
def Layout (search : Pt α d → List τ → Outcome (List τ)) (pts : NArray α) (n k : Nat) (out : NArray τ) :
    Prop :=
  ∀ i < n, ∀ x, IsPoint pts i x → ∃ s r, s.length = k ∧ search x s = .ok r ∧ r.length = k ∧
    ∀ j < k, out.get (if pts.isC then [i, j] else [j, i]) = r[j]?

theorem layout_of_core {nns' : NArray τ} {b : Nat} {out : List τ}
    (hpos : ∀ i < n, ∀ j < k, nns'.pos (if pts.isC then [i, j] else [j, i]) = ((b + i * k + j : Nat) : Int))
    (h : ∀ i < n, ∀ x, IsPoint pts i x → ∃ s r, memSlice nns'.buf ((b + i * k : Nat) : Int) k = some s ∧
      search x s = .ok r ∧ r.length = k ∧ ∀ j < k, out[b + i * k + j]? = r[j]?) :
    Layout search pts n k { nns' with buf := out } := by
  intro i hi x hx
  obtain ⟨s, r, h1, h2, h3, h4⟩ := h i hi x hx
  refine ⟨s, r, (memSlice_some h1).2.1, h2, h3, fun j hj => ?_⟩
  have e := hpos i hi j hj
  unfold NArray.get
  rw [show ({ nns' with buf := out } : NArray τ).pos (if pts.isC then [i, j] else [j, i]) =
    ((b + i * k + j : Nat) : Int) from e]
  rw [← h4 j hj]
  unfold readAt
  rw [if_pos (by omega)]
  rfl

variable (hv : Valid pts) (hp : Points pts n d) (hD : Dim = none ∨ Dim = some d)
  (hst : pts.dtype = scalarT) (hs : Fills search k)
include hv hp hD hst hs

/-- C35 (new output; partial: C ordered queries, at least one of them, and `k` at least 2): shape `(npts, k)`,
C ordered, entry `[i, j]` is neighbor `j` of query `i`. -/
theorem c35_new_partial (hC : pts.isC = true) (hn : 0 < n) (hk : 2 ≤ k) :
    ∃ out, pyKnn Dim scalarT neighborT zero search pts k = .ok out ∧ out.shape = [n, k] ∧
      out.isC = true ∧ Layout search pts n k out := by
  obtain ⟨nns, h1, h2, h3, h4, h5, -, h6⟩ := ensureSize_default zero n pts.isC k neighborT
  obtain ⟨h7, h8⟩ := h6 (by positivity)
  rw [if_neg (by omega), hC, if_pos rfl] at h7
  rw [h7] at h8
  have h8' : nns.strides = [(k : Int), 1] := by simpa [cStrides] using h8
  obtain ⟨out, g1, g2, g3, -⟩ := pyKnnInto_core (nns := .default neighborT) (neighborT := neighborT) hv hp
    hD hst rfl h1 h2 (b := 0) h3 (by rw [h4]; simp) hs
  refine ⟨_, g1, h7, ?_, layout_of_core (fun i _ j _ => ?_) g3⟩
  · have hk1 : k ≠ 1 := by omega
    simp [NArray.isC, h7, h8', contiguous, hk1]
  · rw [hC, if_pos rfl, pos_two h8', h3]
    push_cast
    ring

/-- C35 (new output; partial: `k = 1` gives an array of one dimension). -/
theorem c35_one_partial (hk : k = 1) (hn : 0 < n) :
    ∃ out, pyKnn Dim scalarT neighborT zero search pts k = .ok out ∧ out.shape = [n] ∧
      ∀ i < n, ∀ x, IsPoint pts i x → ∃ s r, s.length = 1 ∧ search x s = .ok [r] ∧
        out.get [i] = some r := by
  subst hk
  obtain ⟨nns, h1, h2, h3, h4, h5, -, h6⟩ := ensureSize_default zero n pts.isC 1 neighborT
  obtain ⟨h7, h8⟩ := h6 (by omega)
  rw [if_pos rfl] at h7
  rw [h7] at h8
  have h8' : nns.strides = [1] := by simpa [cStrides] using h8
  obtain ⟨out, g1, g2, g3, -⟩ := pyKnnInto_core (nns := .default neighborT) (neighborT := neighborT) hv hp
    hD hst rfl h1 h2 (b := 0) h3 (by rw [h4]; simp) hs
  refine ⟨_, g1, h7, fun i hi x hx => ?_⟩
  obtain ⟨s, r, e1, e2, e3, e4⟩ := g3 i hi x hx
  obtain ⟨r0, rfl⟩ := List.length_eq_one_iff.1 e3
  refine ⟨s, r0, (memSlice_some e1).2.1, e2, ?_⟩
  have := e4 0 (by omega)
  simp only [Nat.mul_one, Nat.zero_add, Nat.add_zero, List.getElem?_cons_zero] at this
  unfold NArray.get NArray.pos readAt
  simp [h8', h3, this]

/-- C35 (given output of the documented shape; partial: its order is that of the queries): it keeps its
shape and strides and gets the entries. -/
theorem c35_given_partial {nns : NArray τ} (hvn : Valid nns) (hnt : nns.dtype = neighborT)
    (hw : nns.writeable = true) (hn : 0 < n) (hk : 0 < k)
    (h : pts.isC = true ∧ nns.isC = true ∧ nns.shape = [n, k] ∨
      pts.isC = false ∧ nns.isF = true ∧ nns.shape = [k, n]) :
    ∃ out, pyKnnInto Dim scalarT neighborT zero search pts k nns = .ok out ∧ out.shape = nns.shape ∧
      out.strides = nns.strides ∧ Layout search pts n k out := by
  have he : ensureSize zero n pts.isC k nns = .ok nns := by
    unfold ensureSize
    rw [if_neg]
    rcases h with ⟨-, -, h⟩ | ⟨-, -, h⟩ <;> simp [h, Nat.mul_comm]
  have hb : ∃ b : Nat, nns.base = b ∧ b + n * k ≤ nns.buf.length := by
    rcases h with ⟨-, h1, h2⟩ | ⟨-, h1, h2⟩
    · exact contiguous_inside hvn h2 (Or.inl h1) hn hk
    · obtain ⟨b, hb1, hb2⟩ := contiguous_inside hvn h2 (Or.inr h1) hk hn
      exact ⟨b, hb1, by rw [Nat.mul_comm]; exact hb2⟩
  obtain ⟨b, hb1, hb2⟩ := hb
  obtain ⟨out, g1, g2, g3, -⟩ := pyKnnInto_core (nns := nns) (neighborT := neighborT) hv hp
    hD hst hnt he hw hb1 hb2 hs
  obtain ⟨s0, s1, hstr⟩ := length_two (l := nns.strides)
    (by rw [hvn.dims]; rcases h with ⟨-, -, h⟩ | ⟨-, -, h⟩ <;> simp [h])
  refine ⟨_, g1, rfl, rfl, layout_of_core (fun i hi j hj => ?_) g3⟩
  rcases h with ⟨h0, h1, h2⟩ | ⟨h0, h1, h2⟩
  · rw [h0, if_pos rfl, isC_pos h2 hstr h1 hi hj, hb1]
    push_cast
    ring
  · rw [h0, if_neg (by simp), isF_pos h2 hstr h1 hj hi, hb1]
    push_cast
    ring

/-- C35 (given output of another size; partial: it owns its memory, its order is that of the queries and `k`
is at least 2): it is resized to the documented shape, with memory for exactly that many neighbors, and gets the
entries. -/
theorem c35_resized_partial {nns : NArray τ} (hnt : nns.dtype = neighborT)
    (hw : nns.writeable = true) (how : nns.owns = true) (hk : 2 ≤ k) (hsz : nns.shape.prod ≠ n * k)
    (h : pts.isC = true ∧ nns.isC = true ∨ pts.isC = false ∧ nns.isF = true ∧ nns.isC = false) :
    ∃ out, pyKnnInto Dim scalarT neighborT zero search pts k nns = .ok out ∧
      out.shape = (if pts.isC then [n, k] else [k, n]) ∧ Layout search pts n k out ∧
      out.base = 0 ∧ out.buf.length = n * k ∧ out.dtype = neighborT ∧ out.owns = true := by
  rcases h with ⟨h1, h2⟩ | ⟨h1, h2, h3⟩
  · have he : ∃ nns', ensureSize zero n pts.isC k nns = .ok nns' ∧ nns'.writeable = true ∧
        nns'.base = (0 : Nat) ∧ nns'.buf.length = n * k ∧ nns'.dtype = neighborT ∧ nns'.owns = true ∧ nns'.shape = [n, k] ∧
        nns'.strides = [(k : Int), 1] := by
      unfold ensureSize NArray.resize
      rw [if_pos hsz, if_neg (by omega)]
      simp [h1, h2, how, hw, hnt, cStrides]
      omega
    obtain ⟨nns', e1, e2, e3, e4, e7, e8, e5, e6⟩ := he
    obtain ⟨out, g1, g2, g3, -⟩ := pyKnnInto_core (nns := nns) (neighborT := neighborT) hv hp
      hD hst hnt e1 e2 (b := 0) e3 (by omega) hs
    refine ⟨_, g1, by rw [h1, if_pos rfl]; exact e5, layout_of_core (fun i hi j hj => ?_) g3, e3,
      g2.trans e4, e7, e8⟩
    rw [h1, if_pos rfl, pos_two e6, e3]
    push_cast
    ring
  · have he : ∃ nns', ensureSize zero n pts.isC k nns = .ok nns' ∧ nns'.writeable = true ∧
        nns'.base = (0 : Nat) ∧ nns'.buf.length = n * k ∧ nns'.dtype = neighborT ∧ nns'.owns = true ∧ nns'.shape = [k, n] ∧
        nns'.strides = [1, (k : Int)] := by
      unfold ensureSize NArray.resize
      rw [if_pos hsz, if_neg (by omega)]
      simp [h1, h2, h3, how, hw, hnt, fStrides, Nat.mul_comm k n]
      omega
    obtain ⟨nns', e1, e2, e3, e4, e7, e8, e5, e6⟩ := he
    obtain ⟨out, g1, g2, g3, -⟩ := pyKnnInto_core (nns := nns) (neighborT := neighborT) hv hp
      hD hst hnt e1 e2 (b := 0) e3 (by omega) hs
    refine ⟨_, g1, by rw [h1, if_neg (by simp)]; exact e5, layout_of_core (fun i hi j hj => ?_) g3, e3,
      g2.trans e4, e7, e8⟩
    rw [h1, if_neg (by simp), pos_two e6, e3]
    push_cast
    ring

end

/-- The queries (0, 0), (4, 1) and (9, 2). -/
def exQueryC : NArray Int := ⟨.float32, [3, 2], [2, 1], 0, [0, 0, 4, 1, 9, 2], true, true⟩
/-- The same queries as columns. -/
def exQueryF : NArray Int := ⟨.float32, [2, 3], [1, 2], 0, [0, 0, 4, 1, 9, 2], true, true⟩
/-- A new array for 6 neighbors. -/
def exOut (shape : List Nat) (strides : List Int) (base : Int) (n : Nat) : NArray (Neighbor Int) :=
  ⟨.neighborF, shape, strides, base, List.replicate n ⟨0, 0⟩, true, base == 0⟩

example : Valid exQueryC ∧ Points exQueryC 3 2 ∧ Valid exQueryF ∧ Points exQueryF 3 2 ∧
    IsPoint exQueryC 1 ![4, 1] ∧ IsPoint exQueryF 1 ![4, 1] := by
  refine ⟨valid_two rfl rfl (by decide) (by decide), Or.inl (by decide),
    valid_two rfl rfl (by decide) (by decide), Or.inr (by decide), by unfold IsPoint; decide,
    by unfold IsPoint; decide⟩

/-- C ordered queries: the documented result. -/
example : ∃ T, KdTree.make (euclideanTag Int 2) (metricL1 Int 2) Ref.intNum Ref.pts5 5
    (Ref.optsSliding Int 2) 10 = .ok T ∧
    ∃ out, pyKnn (some 2) .float32 .neighborF ⟨0, 0⟩ T.searchKnnRange exQueryC 2 = .ok out ∧
      out.shape = [3, 2] ∧ out.get [1, 0] = some ⟨1, 0⟩ ∧ out.get [1, 1] = some ⟨0, 5⟩ := by
  obtain ⟨T, h1, h2⟩ := Outcome.exists_of_check (x := KdTree.make (euclideanTag Int 2) (metricL1 Int 2)
    Ref.intNum Ref.pts5 5 (Ref.optsSliding Int 2) 10)
    (p := fun T => (pyKnn (some 2) .float32 .neighborF ⟨0, 0⟩ T.searchKnnRange exQueryC 2).check
      fun out => decide (out.shape = [3, 2] ∧ out.get [1, 0] = some ⟨1, 0⟩ ∧
        out.get [1, 1] = some ⟨0, 5⟩)) (by decide +kernel)
  obtain ⟨out, h3, h4⟩ := Call.exists_of_check h2
  exact ⟨T, h1, out, h3, by simpa using h4⟩

/-- C35 is false for F ordered queries with a new output: the array has the shape `(k, npts)` but is C
ordered, and entry `[0, 1]`, the nearest neighbor of query 1, is ⟨1, 5⟩ instead of ⟨1, 0⟩. -/
theorem c35_order_false : ∃ T, KdTree.make (euclideanTag Int 2) (metricL1 Int 2) Ref.intNum Ref.pts5 5
    (Ref.optsSliding Int 2) 10 = .ok T ∧
    (∃ out, pyKnn (some 2) .float32 .neighborF ⟨0, 0⟩ T.searchKnnRange exQueryF 2 = .ok out ∧
      out.shape = [2, 3] ∧ out.isC = true ∧ out.isF = false ∧ out.get [0, 1] = some ⟨1, 5⟩) ∧
    T.searchKnn ![4, 1] 2 [] = .ok [⟨1, 0⟩, ⟨0, 5⟩] := by
  obtain ⟨T, h1, h2⟩ := Outcome.exists_of_check (x := KdTree.make (euclideanTag Int 2) (metricL1 Int 2)
    Ref.intNum Ref.pts5 5 (Ref.optsSliding Int 2) 10)
    (p := fun T => (pyKnn (some 2) .float32 .neighborF ⟨0, 0⟩ T.searchKnnRange exQueryF 2).check
      (fun out => decide (out.shape = [2, 3] ∧ out.isC = true ∧ out.isF = false ∧
        out.get [0, 1] = some ⟨1, 5⟩)) &&
      decide (T.searchKnn ![4, 1] 2 [] = .ok [⟨1, 0⟩, ⟨0, 5⟩])) (by decide +kernel)
  rw [Bool.and_eq_true] at h2
  obtain ⟨out, h3, h4⟩ := Call.exists_of_check h2.1
  exact ⟨T, h1, ⟨out, h3, by simpa using h4⟩, by simpa using h2.2⟩

/-- C35 is false for a given output of another shape but the same size: it is not resized, and entry
`[1, 0]` is not the nearest neighbor ⟨1, 0⟩ of query 1. -/
theorem c35_shape_false : ∃ T, KdTree.make (euclideanTag Int 2) (metricL1 Int 2) Ref.intNum Ref.pts5 5
    (Ref.optsSliding Int 2) 10 = .ok T ∧
    ∃ out, pyKnnInto (some 2) .float32 .neighborF ⟨0, 0⟩ T.searchKnnRange exQueryC 2
      (exOut [2, 3] [3, 1] 0 6) = .ok out ∧ out.shape = [2, 3] ∧ out.get [1, 0] = some ⟨0, 5⟩ := by
  obtain ⟨T, h1, h2⟩ := Outcome.exists_of_check (x := KdTree.make (euclideanTag Int 2) (metricL1 Int 2)
    Ref.intNum Ref.pts5 5 (Ref.optsSliding Int 2) 10)
    (p := fun T => (pyKnnInto (some 2) .float32 .neighborF ⟨0, 0⟩ T.searchKnnRange exQueryC 2
      (exOut [2, 3] [3, 1] 0 6)).check fun out => decide (out.shape = [2, 3] ∧
        out.get [1, 0] = some ⟨0, 5⟩)) (by decide +kernel)
  obtain ⟨out, h3, h4⟩ := Call.exists_of_check h2
  exact ⟨T, h1, out, h3, by simpa using h4⟩

/-- C35 is false for a given output of the documented shape that is not contiguous (every other column of a
larger array): the strides are ignored, and entry `[1, 0]` is not ⟨1, 0⟩. -/
theorem c35_strided_false : ∃ T, KdTree.make (euclideanTag Int 2) (metricL1 Int 2) Ref.intNum Ref.pts5 5
    (Ref.optsSliding Int 2) 10 = .ok T ∧
    ∃ out, pyKnnInto (some 2) .float32 .neighborF ⟨0, 0⟩ T.searchKnnRange exQueryC 2
      (exOut [3, 2] [4, 2] 0 12) = .ok out ∧ out.shape = [3, 2] ∧ out.get [1, 0] = some ⟨4, 0⟩ := by
  obtain ⟨T, h1, h2⟩ := Outcome.exists_of_check (x := KdTree.make (euclideanTag Int 2) (metricL1 Int 2)
    Ref.intNum Ref.pts5 5 (Ref.optsSliding Int 2) 10)
    (p := fun T => (pyKnnInto (some 2) .float32 .neighborF ⟨0, 0⟩ T.searchKnnRange exQueryC 2
      (exOut [3, 2] [4, 2] 0 12)).check fun out => decide (out.shape = [3, 2] ∧
        out.get [1, 0] = some ⟨4, 0⟩)) (by decide +kernel)
  obtain ⟨out, h3, h4⟩ := Call.exists_of_check h2
  exact ⟨T, h1, out, h3, by simpa using h4⟩

/-- C35 is false for a reversed view (`nns[::-1]`): the results are written behind the end of the array. -/
theorem c35_reversed_false : Valid (exOut [3, 2] [-2, 1] 4 6) ∧
    ∃ T, KdTree.make (euclideanTag Int 2) (metricL1 Int 2) Ref.intNum Ref.pts5 5
      (Ref.optsSliding Int 2) 10 = .ok T ∧
    pyKnnInto (some 2) .float32 .neighborF ⟨0, 0⟩ T.searchKnnRange exQueryC 2
      (exOut [3, 2] [-2, 1] 4 6) matches .ub := by
  refine ⟨valid_two rfl rfl (by decide) (by decide), ?_⟩
  obtain ⟨T, h1, h2⟩ := Outcome.exists_of_check (x := KdTree.make (euclideanTag Int 2) (metricL1 Int 2)
    Ref.intNum Ref.pts5 5 (Ref.optsSliding Int 2) 10)
    (p := fun T => pyKnnInto (some 2) .float32 .neighborF ⟨0, 0⟩ T.searchKnnRange exQueryC 2
      (exOut [3, 2] [-2, 1] 4 6) matches .ub) (by decide +kernel)
  exact ⟨T, h1, h2⟩

/-- The hypotheses of `c35_given_partial` for an F ordered output. -/
example : Valid (exOut [2, 3] [1, 2] 0 6) ∧ (exOut [2, 3] [1, 2] 0 6).isF = true ∧
    (exOut [2, 3] [1, 2] 0 6).isC = false := ⟨valid_two rfl rfl (by decide) (by decide), rfl, rfl⟩

/-- Boxes given by four corners; three corners raise. -/
example : ∃ T, KdTree.make (euclideanTag Int 2) (metricL1 Int 2) Ref.intNum Ref.pts5 5
    (Ref.optsSliding Int 2) 10 = .ok T ∧
    pyBox (some 2) .float32 .int32 T.searchBox
      (⟨.float32, [4, 2], [2, 1], 0, [0, 0, 4, 1, 3, 2, 9, 9], true, true⟩ : NArray Int) =
      .ok [[0, 1], [2, 3, 4]] ∧
    pyBox (some 2) .float32 .int32 T.searchBox exQueryC = .throws := by
  obtain ⟨T, h1, h2⟩ := Outcome.exists_of_check (x := KdTree.make (euclideanTag Int 2) (metricL1 Int 2)
    Ref.intNum Ref.pts5 5 (Ref.optsSliding Int 2) 10)
    (p := fun T => decide (pyBox (some 2) .float32 .int32 T.searchBox
      (⟨.float32, [4, 2], [2, 1], 0, [0, 0, 4, 1, 3, 2, 9, 9], true, true⟩ : NArray Int) =
      .ok [[0, 1], [2, 3, 4]] ∧
    pyBox (some 2) .float32 .int32 T.searchBox exQueryC = .throws)) (by decide +kernel)
  exact ⟨T, h1, by simpa using h2⟩

end Pico.Props
