import Verif.Proof.RotationError
import Verif.Props.Forest

/-!
# C96: the kd forest in floating point arithmetic

Each tree of the forest holds a rotated copy of the points; the rotation is rounded, so is every operation of the
search.  Distances are compared in exact arithmetic between the points the user passed in.
-/

set_option linter.unusedSectionVars false

namespace Pico.Props

open Pico Spec

section
variable {K : Type} [Field K] [LinearOrder K] [IsStrictOrderedRing K] {R : Rounding K} {d : Nat} {u ν : K}
  {M : Metric R.F d} {S : Std} {N : Num R.F} {pts : Nat → Pt R.F d} {n indexBits maxLeafSize fuel : Nat}
  {rotations : List (Pt R.F d)} {F : Forest R.F d}

/-- The distance of point `i` as it is computed on the tree with normal `r`. -/
def computed (M : Metric R.F d) (pts : Nat → Pt R.F d) (x r : Pt R.F d) (i : Nat) : R.F :=
  M.dist (rotatePoint r x) (rotatePoint r (pts i))

/-- C96, in terms of the computed distances between rotated points: `search_nn` returns a point with the distance
computed on one of the trees. No point of a visited leaf has a smaller one. On a tree with no more leaves than the
budget no point at all has a smaller one, up to the accumulated rounding error. -/
theorem c96_computed_partial (hu : R.Error u) (hu0 : 0 ≤ u) (hu1 : u ≤ 1) (hM : AxisMetric M) (h0 : M.one 0 = 0)
    (hn : 0 < n) (hm : 1 ≤ maxLeafSize ∧ maxLeafSize < 2 ^ (indexBits - 1)) (hN : N.low ≤ N.big)
    (hp : ∀ r ∈ rotations, ∀ i < n, ∀ j, InRange N (rotatePoint r (pts i) j))
    (h : Forest.make M S N pts n indexBits maxLeafSize fuel rotations = .ok F)
    (Q : Nat → StdQueue R.F (Tree (Branch2 R.F d))) (x : Pt R.F d) (maxLeaves fuel' : Nat) (hf : n < fuel')
    (hbig : ∀ r ∈ rotations, ∀ i < n, computed M pts x r i < N.big)
    (hne : rotations ≠ []) (hl : 0 < maxLeaves) (nn : Neighbor R.F) :
    ∃ res, ∃ vss : List (List Nat), F.searchNn Q fuel' x maxLeaves nn = .ok res ∧ res.index < n ∧
      (∃ r ∈ rotations, res.distance = computed M pts x r res.index) ∧
      List.Forall₂ (fun t vs => t.rotation ∈ rotations ∧
        LeafVisits maxLeaves (ranges t.data.root) t.data.indices vs ∧ vs ≠ [] ∧
        (∀ i ∈ vs, i < n) ∧ ∀ i ∈ vs, res.distance ≤ computed M pts x t.rotation i) F.trees vss ∧
      ∀ t ∈ F.trees, (ranges t.data.root).length ≤ maxLeaves → ∀ i < n,
        (1 - u) ^ d * res.distance.1 ≤ (1 + u) ^ (2 * Spec.height t.data.root) * (computed M pts x t.rotation i).1 := by
  obtain ⟨hMF, hnum, hF⟩ := Forest.make_ok h
  have hd0 : ∀ r i, 0 ≤ computed M pts x r i := by
    intro r i
    exact dist_nonneg hu hu0 hu1 hM (rotatePoint r x) (fun i => rotatePoint r (pts i)) i
  have htree : ∀ t ∈ F.trees, t.rotation ∈ rotations ∧ t.pts = (fun i => rotatePoint t.rotation (pts i)) := by
    intro t ht
    obtain ⟨r, hr, hrt⟩ := forall₂_right hF ht
    obtain ⟨hrot, hpts, -⟩ := Forest.makeTree_ok hrt
    rw [hrot]
    exact ⟨hr, hpts⟩
  have hT : F.trees ≠ [] := by
    intro h0
    have := hF.length_eq
    rw [h0] at this
    exact hne (List.length_eq_zero_iff.1 this)
  have hb0 : 0 ≤ N.big := by
    obtain ⟨r, hr⟩ := List.exists_mem_of_ne_nil _ hne
    exact (hd0 r 0).trans (hbig r hr 0 hn).le
  obtain ⟨res, vss, g1, g2, g3, g4, g5, g6⟩ := Forest.searchNn_all (Q := Q) (n := n) (x := x)
    (maxLeaves := maxLeaves) (fuel := fuel') (F := F) hMF
    (D := fun t i => computed M pts x t.rotation i) (lo := (1 - u) ^ d)
    (up := fun t => (1 + u) ^ (2 * Spec.height t.data.root)) (pow_nonneg (by linarith) _)
    (pow_le_one₀ (by linarith) (by linarith)) (fun t => one_le_pow₀ (by linarith)) (fun t i => hd0 _ _) (by
      intro t ht j
      obtain ⟨r, hr, hrt⟩ := forall₂_right hF ht
      have hsh := Forest.makeTree_shape hm hn hrt
      obtain ⟨hrot, hpts, hb⟩ := Forest.makeTree_ok hrt
      obtain ⟨-, -, box, hB⟩ := buildTree_built (by simp) hN (hp r hr) (by trivial) hn hb
      have := prioritySearch_near (V := nnVisitor) (Inv := fun _ => True) (Q := Q j) (x := x) (maxLeaves := maxLeaves)
        (fuel := fuel') hM hu hu0 hu1 h0 (t := t) (n := n)
        (fun s i _ hs => shrinks_nn (fun i => M.dist (rotatePoint t.rotation x) (t.pts i)) s i trivial hs) (box := box) (by rw [hpts]; exact hB) hsh
        (hsh.leaves.trans_lt hf)
      have e : (fun i => M.dist (rotatePoint t.rotation x) (t.pts i)) = computed M pts x t.rotation := by
        rw [(htree t ht).2]
        rfl
      intro s hs
      have := this s hs
      rw [e] at this
      obtain ⟨vs, a1, a2, a3, a4, a5⟩ := this
      refine ⟨vs, by rw [e]; exact a1, a2, a3, fun hl' i hi => ?_, a5⟩
      rcases a4 hl' i hi with a | a
      · exact Or.inl a
      · right
        rw [← e]
        exact a)
    (nnInit F.num nn) (by rw [hnum]; exact hb0)
  have hdist : (nnInit F.num nn).distance = N.big := by rw [hnum]; rfl
  have hres : ∃ t ∈ F.trees, ∃ i < n, res = ⟨i, computed M pts x t.rotation i⟩ := by
    rcases g2 with e | hex
    · exfalso
      obtain ⟨t, ht⟩ := List.exists_mem_of_ne_nil _ hT
      obtain ⟨vs, hvs, hv⟩ := forall₂_left g5 ht
      obtain ⟨i, hi⟩ := List.exists_mem_of_ne_nil _ (hv.2.1 hl)
      have h1 := hv.2.2.2 i hi
      rw [e, hdist] at h1
      exact absurd (hbig _ (htree t ht).1 i (hv.2.2.1 i hi)) (not_lt.2 h1)
    · exact hex
  obtain ⟨t, ht, i, hi, rfl⟩ := hres
  refine ⟨_, vss, g1, hi, ⟨t.rotation, (htree t ht).1, rfl⟩, ?_, g6⟩
  refine List.Forall₂.imp ?_ ((List.forall₂_and_left _ _).2 ⟨fun t ht => (htree t ht).1, g5⟩)
  rintro t vs ⟨k1, k2, k3, k4, k5⟩
  exact ⟨k1, k2, k3 hl, k4, k5⟩

/-- The squared distance between two points as it is computed, with underflow. -/
theorem accurate_l2_mul (hu : R.Error u) (hm : R.MulError u ν) (hu0 : 0 ≤ u) (hu1 : u ≤ 1) (x y : Pt R.F d) :
    (1 - u) ^ d * ((1 - u) ^ 3 * l2Sq (R.exactPt x) (R.exactPt y) - d * ν) ≤ ((metricL2Sq R.F d).dist x y).1 ∧
      ((metricL2Sq R.F d).dist x y).1 ≤ (1 + u) ^ d * ((1 + u) ^ 3 * l2Sq (R.exactPt x) (R.exactPt y) + d * ν) := by
  have hf : ∀ j, (1 - u) ^ 3 * ((x j).1 - (y j).1) ^ 2 - ν ≤ (squaredR1Distance (x j) (y j)).1 ∧
      (squaredR1Distance (x j) (y j)).1 ≤ (1 + u) ^ 3 * ((x j).1 - (y j).1) ^ 2 + ν := by
    intro j
    obtain ⟨a, b⟩ := sub_error hu (x j) (y j)
    have c := abs_le.1 (hm (x j - y j) (x j - y j))
    have hv : (squaredR1Distance (x j) (y j)).1 = ((x j - y j) * (x j - y j)).1 := rfl
    rw [hv]
    set z := (x j - y j).1
    set t := (x j).1 - (y j).1
    have ez : |z * z| = |z| ^ 2 := by rw [abs_mul]; ring
    have ez' : z * z = |z| ^ 2 := by rw [sq_abs]; ring
    have et : t ^ 2 = |t| ^ 2 := (sq_abs t).symm
    have h1 : ((1 - u) * |t|) ^ 2 ≤ |z| ^ 2 := pow_le_pow_left₀ (mul_nonneg (by linarith) (abs_nonneg t)) a 2
    have h2 : |z| ^ 2 ≤ ((1 + u) * |t|) ^ 2 := pow_le_pow_left₀ (abs_nonneg z) b 2
    rw [ez, ez'] at c
    rw [et]
    constructor
    · have : (1 - u) * ((1 - u) * |t|) ^ 2 ≤ (1 - u) * |z| ^ 2 := mul_le_mul_of_nonneg_left h1 (by linarith)
      have e : (1 - u) ^ 3 * |t| ^ 2 = (1 - u) * ((1 - u) * |t|) ^ 2 := by ring
      rw [e]
      linarith [c.1]
    · have : (1 + u) * |z| ^ 2 ≤ (1 + u) * ((1 + u) * |t|) ^ 2 := mul_le_mul_of_nonneg_left h2 (by linarith)
      have e : (1 + u) ^ 3 * |t| ^ 2 = (1 + u) * ((1 + u) * |t|) ^ 2 := by ring
      rw [e]
      linarith [c.2]
  have hf0 : ∀ j, 0 ≤ squaredR1Distance (x j) (y j) := fun j =>
    (axis_l2Sq (d := 1) R.laws R.squareLaws).nonneg (x j - y j)
  have e : (metricL2Sq R.F d).dist x y = loopSum fun j => squaredR1Distance (x j) (y j) := rfl
  rw [e]
  constructor
  · refine le_trans (mul_le_mul_of_nonneg_left ?_ (pow_nonneg (by linarith) _)) (loopSum_ge hu hu0 hu1 _ hf0)
    refine le_trans (le_of_eq ?_) (Finset.sum_le_sum fun j _ => (hf j).1)
    rw [Finset.sum_sub_distrib, ← Finset.mul_sum, Finset.sum_const, Finset.card_univ, Fintype.card_fin, nsmul_eq_mul]
    rfl
  · refine (loopSum_le hu hu0 _ hf0).trans (mul_le_mul_of_nonneg_left ?_ (pow_nonneg (by linarith) _))
    refine (Finset.sum_le_sum fun j _ => (hf j).2).trans (le_of_eq ?_)
    rw [Finset.sum_add_distrib, ← Finset.mul_sum, Finset.sum_const, Finset.card_univ, Fintype.card_fin, nsmul_eq_mul]
    rfl

/-- The squared length of `x` is at most `X` squared. -/
def Within (X : K) (x : Pt R.F d) : Prop := ∑ j, (x j).1 ^ 2 ≤ X ^ 2

/-- The vector has length one up to `η` (of its square). -/
def NearUnit (η : K) (r : Pt R.F d) : Prop := |∑ j, (r j).1 ^ 2 - 1| ≤ η

section Rotated
variable (hu : R.Error u) (hmul : R.MulError u ν) (hu0 : 0 ≤ u) (hν : 0 ≤ ν)
    (h2 : (1 + 1 : R.F).1 = 2) {X η : K} (hX : 0 ≤ X) {r x y : Pt R.F d} (hr : NearUnit η r) (hx : Within X x)
    (hy : Within X y)
include hu hmul hu0 hν h2 hX hr hx hy

theorem rotated_diff :
    LengthLe (fun j => ((rotatePoint r x j).1 - (rotatePoint r y j).1) -
      reflect (R.exactPt r) (fun j => (x j).1 - (y j).1) j) (2 * rotationError u ν d (1 + η) X) := by
  have hη : 0 ≤ η := (abs_nonneg _).trans hr
  have hρ : LengthLe (R.exactPt r) (1 + η) := by
    refine ⟨by linarith, ?_⟩
    have := (abs_le.1 hr).2
    change ∑ j, (r j).1 ^ 2 ≤ _
    nlinarith
  have ex := rotate_error hu hmul hu0 hν h2 hρ ⟨hX, hx⟩
  have ey := rotate_error hu hmul hu0 hν h2 hρ ⟨hX, hy⟩
  rw [two_mul]
  have := ex.add ey.neg
  refine this.of_le fun j => le_of_eq ?_
  congr 1
  have := reflect_sub (R.exactPt r) (R.exactPt x) (R.exactPt y) j
  change _ = reflect (R.exactPt r) (fun j => (x j).1 - (y j).1) j at this
  rw [← this]
  ring

/-- Rotated points are not much farther apart ... -/
theorem rotated_le {a : K} (ha : 0 ≤ a) (hxy : l2Sq (R.exactPt x) (R.exactPt y) ≤ a ^ 2) :
    l2Sq (R.exactPt (rotatePoint r x)) (R.exactPt (rotatePoint r y)) ≤
      ((1 + 4 * η * (1 + η)) * a + 2 * rotationError u ν d (1 + η) X) ^ 2 := by
  have hη : 0 ≤ η := (abs_nonneg _).trans hr
  have hκ : 0 ≤ 4 * η * (1 + η) := by positivity
  have h1 := (abs_le.1 (reflect_near hr fun j => (x j).1 - (y j).1)).2
  have h3 : LengthLe (reflect (R.exactPt r) fun j => (x j).1 - (y j).1) ((1 + 4 * η * (1 + η)) * a) := by
    refine ⟨by positivity, ?_⟩
    set s := ∑ j, ((x j).1 - (y j).1) ^ 2 with hs
    have hs0 : 0 ≤ s := Finset.sum_nonneg fun j _ => sq_nonneg _
    have hxy : s ≤ a ^ 2 := hxy
    set κ := 4 * η * (1 + η)
    have h4 : ∑ j, reflect (R.exactPt r) (fun j => (x j).1 - (y j).1) j ^ 2 ≤ (1 + κ) * s := by
      change ∑ j, reflect (fun j => (r j).1) (fun j => (x j).1 - (y j).1) j ^ 2 ≤ _
      linarith
    have h5 : (1 + κ) * s ≤ (1 + κ) * a ^ 2 := mul_le_mul_of_nonneg_left hxy (by linarith)
    have h6 : (1 + κ) * a ^ 2 ≤ (1 + κ) ^ 2 * a ^ 2 :=
      mul_le_mul_of_nonneg_right (by nlinarith) (sq_nonneg a)
    rw [mul_pow]
    linarith
  have := (h3.add (rotated_diff hu hmul hu0 hν h2 hX hr hx hy)).2
  refine le_trans (le_of_eq ?_) this
  exact Finset.sum_congr rfl fun j _ => by
    change ((rotatePoint r x j).1 - (rotatePoint r y j).1) ^ 2 = _
    congr 1
    ring

/-- ... and not much closer together. -/
theorem rotated_ge {b : K} (hb : 0 ≤ b)
    (hxy : l2Sq (R.exactPt (rotatePoint r x)) (R.exactPt (rotatePoint r y)) ≤ b ^ 2) :
    (1 - 4 * η * (1 + η)) * l2Sq (R.exactPt x) (R.exactPt y) ≤ (b + 2 * rotationError u ν d (1 + η) X) ^ 2 := by
  have h1 := (abs_le.1 (reflect_near hr fun j => (x j).1 - (y j).1)).1
  have h3 : LengthLe (fun j => (rotatePoint r x j).1 - (rotatePoint r y j).1) b := ⟨hb, hxy⟩
  have h4 := (h3.add (rotated_diff hu hmul hu0 hν h2 hX hr hx hy).neg).2
  have h5 : ∑ j, reflect (R.exactPt r) (fun j => (x j).1 - (y j).1) j ^ 2 ≤
      (b + 2 * rotationError u ν d (1 + η) X) ^ 2 := by
    refine le_trans (le_of_eq ?_) h4
    exact Finset.sum_congr rfl fun j _ => by ring
  refine le_trans ?_ h5
  change (1 - 4 * η * (1 + η)) * ∑ j, ((x j).1 - (y j).1) ^ 2 ≤
    ∑ j, reflect (fun j => (r j).1) (fun j => (x j).1 - (y j).1) j ^ 2
  linarith

end Rotated

/-- C96, in terms of true distances, for a budget of at least the number of leaves of a tree `t`: if some point is at
most `a` away from the query, then the point that `search_nn` returns is at most `b + 2 E` away, up to the deviation
`η` of the normals from length one. `E` is the rounding error of the rotation; it grows with the distance `X` of
the points from the origin. `b` exceeds `a` by rounding errors only. -/
theorem c96_partial (hu : R.Error u) (hmul : R.MulError u ν) (hu0 : 0 ≤ u) (hu1 : u < 1) (hν : 0 ≤ ν)
    (h2 : (1 + 1 : R.F).1 = 2)
    (hn : 0 < n) (hm : 1 ≤ maxLeafSize ∧ maxLeafSize < 2 ^ (indexBits - 1)) (hN : N.low ≤ N.big)
    (hp : ∀ r ∈ rotations, ∀ i < n, ∀ j, InRange N (rotatePoint r (pts i) j))
    (h : Forest.make (metricL2Sq R.F d) S N pts n indexBits maxLeafSize fuel rotations = .ok F)
    (Q : Nat → StdQueue R.F (Tree (Branch2 R.F d))) (x : Pt R.F d) (maxLeaves fuel' : Nat) (hf : n < fuel')
    (hbig : ∀ r ∈ rotations, ∀ i < n, computed (metricL2Sq R.F d) pts x r i < N.big)
    {X η : K} (hX : 0 ≤ X) (hr : ∀ r ∈ rotations, NearUnit η r) (hx : Within X x) (hpts : ∀ i < n, Within X (pts i))
    (t : RotTree R.F d) (ht : t ∈ F.trees) (hl : (ranges t.data.root).length ≤ maxLeaves) (nn : Neighbor R.F) :
    ∃ res, F.searchNn Q fuel' x maxLeaves nn = .ok res ∧ res.index < n ∧
      ∀ a b, 0 ≤ a → 0 ≤ b → (∃ i < n, l2Sq (R.exactPt x) (R.exactPt (pts i)) ≤ a ^ 2) →
        (1 + u) ^ (2 * Spec.height t.data.root + d) *
            ((1 + u) ^ 3 * ((1 + 4 * η * (1 + η)) * a + 2 * rotationError u ν d (1 + η) X) ^ 2 + d * ν) ≤
          (1 - u) ^ (2 * d) * ((1 - u) ^ 3 * b ^ 2 - d * ν) →
        (1 - 4 * η * (1 + η)) * l2Sq (R.exactPt x) (R.exactPt (pts res.index)) ≤
          (b + 2 * rotationError u ν d (1 + η) X) ^ 2 := by
  have hlaw : (metricL2Sq R.F d).one 0 = 0 := by
    change (0 : R.F) * 0 = 0
    exact R.squareLaws.zero_mul_zero
  obtain ⟨-, -, hF⟩ := Forest.make_ok h
  obtain ⟨r₀, hr₀, hrt⟩ := forall₂_right hF ht
  have hsh := Forest.makeTree_shape hm hn hrt
  have hpos : 0 < maxLeaves := by
    refine lt_of_lt_of_le (List.length_pos_iff.2 fun h0 => ?_) hl
    have := hsh.elems
    rw [Tree.elems_eq_ranges, h0, List.flatMap_nil] at this
    have := hsh.perm.length_eq
    simp_all
  obtain ⟨res, vss, g1, g2, ⟨r, hrr, g3⟩, -, g5⟩ := c96_computed_partial hu hu0 hu1.le
    (axis_l2Sq (d := d) R.laws R.squareLaws) hlaw hn hm hN hp h Q x maxLeaves fuel' hf hbig
    (List.ne_nil_of_mem hr₀) hpos nn
  refine ⟨res, g1, g2, ?_⟩
  rintro a b ha hb ⟨i, hi, hia⟩ hab
  have hrot : t.rotation = r₀ := (Forest.makeTree_ok hrt).1
  refine rotated_ge hu hmul hu0 hν h2 hX (hr r hrr) hx (hpts _ g2) hb ?_
  have k1 := g5 t ht hl i hi
  rw [g3, hrot] at k1
  have k2 := (accurate_l2_mul hu hmul hu0 hu1.le (rotatePoint r₀ x) (rotatePoint r₀ (pts i))).2
  have k3 := (accurate_l2_mul hu hmul hu0 hu1.le (rotatePoint r x) (rotatePoint r (pts res.index))).1
  have k4 := rotated_le hu hmul hu0 hν h2 hX (hr r₀ hr₀) hx (hpts i hi) ha hia
  set B := (1 + 4 * η * (1 + η)) * a + 2 * rotationError u ν d (1 + η) X
  set Z := l2Sq (R.exactPt (rotatePoint r x)) (R.exactPt (rotatePoint r (pts res.index)))
  have hlo : 0 < (1 - u) ^ d := pow_pos (by linarith) _
  have k5 : (computed (metricL2Sq R.F d) pts x r₀ i).1 ≤ (1 + u) ^ d * ((1 + u) ^ 3 * B ^ 2 + d * ν) := by
    refine k2.trans (mul_le_mul_of_nonneg_left ?_ (pow_nonneg (by linarith) _))
    have := mul_le_mul_of_nonneg_left k4 (pow_nonneg (by linarith : 0 ≤ 1 + u) 3)
    linarith
  have k6 : (1 - u) ^ d * ((1 - u) ^ d * ((1 - u) ^ 3 * Z - d * ν)) ≤
      (1 - u) ^ d * ((1 - u) ^ d * ((1 - u) ^ 3 * b ^ 2 - d * ν)) := by
    calc _ ≤ (1 - u) ^ d * (computed (metricL2Sq R.F d) pts x r res.index).1 :=
          mul_le_mul_of_nonneg_left k3 hlo.le
      _ ≤ _ := k1
      _ ≤ (1 + u) ^ (2 * Spec.height t.data.root) * ((1 + u) ^ d * ((1 + u) ^ 3 * B ^ 2 + d * ν)) :=
          mul_le_mul_of_nonneg_left k5 (pow_nonneg (by linarith) _)
      _ = (1 + u) ^ (2 * Spec.height t.data.root + d) * ((1 + u) ^ 3 * B ^ 2 + d * ν) := by rw [pow_add]; ring
      _ ≤ _ := hab
      _ = _ := by rw [two_mul, pow_add]; ring
  have k7 := le_of_mul_le_mul_left (le_of_mul_le_mul_left k6 hlo) hlo
  exact le_of_mul_le_mul_left (by linarith) (pow_pos (by linarith : 0 < 1 - u) 3)

/-- What is needed of the arithmetic when `normalize` is applied to `x`: nothing underflows. -/
structure NormalizeOk (sqrt : R.F → R.F) (u : K) (x : Pt R.F d) : Prop where
  square : ∀ j, |(x j * x j).1 - (x j).1 * (x j).1| ≤ u * ((x j).1 * (x j).1)
  sqrt_nonneg : 0 < (sqrt (loopSum fun i => x i * x i)).1
  sqrt_lower : (1 - u) ^ 2 * (loopSum fun i => x i * x i).1 ≤ (sqrt (loopSum fun i => x i * x i)).1 ^ 2
  sqrt_upper : (sqrt (loopSum fun i => x i * x i)).1 ^ 2 ≤ (1 + u) ^ 2 * (loopSum fun i => x i * x i).1
  inverse : |(1 / sqrt (loopSum fun i => x i * x i) : R.F).1 - 1 / (sqrt (loopSum fun i => x i * x i)).1| ≤
    u * (1 / (sqrt (loopSum fun i => x i * x i)).1)
  product : ∀ j, |(normalize sqrt x j).1 - (x j).1 * (1 / sqrt (loopSum fun i => x i * x i) : R.F).1| ≤
    u * |(x j).1 * (1 / sqrt (loopSum fun i => x i * x i) : R.F).1|

/-- C96: `normalize` gives vectors of length one up to rounding. -/
theorem c96_normalize (hu : R.Error u) (hu0 : 0 ≤ u) (hu1 : u < 1) {sqrt : R.F → R.F} {x : Pt R.F d}
    (hx : NormalizeOk sqrt u x) :
    (1 - u) ^ 4 ≤ (1 + u) ^ (d + 3) * ∑ j, (normalize sqrt x j).1 ^ 2 ∧
      (1 - u) ^ (d + 3) * ∑ j, (normalize sqrt x j).1 ^ 2 ≤ (1 + u) ^ 4 := by
  set s := loopSum fun i => x i * x i with hs
  set q := (sqrt s).1 with hq
  set l := (1 / sqrt s : R.F).1 with hl
  set A := ∑ j, (x j).1 ^ 2 with hA
  have hv : 0 < 1 - u := by linarith
  have hw : 0 < 1 + u := by linarith
  have hq0 : 0 < q := hx.sqrt_nonneg
  have hA0 : 0 ≤ A := Finset.sum_nonneg fun j _ => sq_nonneg _
  -- the sum of the squares
  have hs' : (1 - u) ^ (d + 1) * A ≤ s.1 ∧ s.1 ≤ (1 + u) ^ (d + 1) * A := by
    refine accurate_sum hu hu0 hu1.le (fun i => x i * x i) (fun j => (x j).1 ^ 2) 1
      (fun j => (axis_l2Sq (d := 1) R.laws R.squareLaws).nonneg (x j)) (fun j => ?_)
    have := abs_le.1 (hx.square j)
    rw [pow_one, pow_one, sq]
    constructor <;> linarith [this.1, this.2]
  -- the inverse of the length
  have hlq := abs_le.1 hx.inverse
  have hl1 : (1 - u) ≤ l * q := by
    have : (1 - u) * (1 / q) ≤ l := by linarith [hlq.1]
    calc (1 - u) = (1 - u) * (1 / q) * q := by field_simp
      _ ≤ l * q := mul_le_mul_of_nonneg_right this hq0.le
  have hl2 : l * q ≤ 1 + u := by
    have : l ≤ (1 + u) * (1 / q) := by linarith [hlq.2]
    calc l * q ≤ (1 + u) * (1 / q) * q := mul_le_mul_of_nonneg_right this hq0.le
      _ = 1 + u := by field_simp
  -- one coordinate
  have hc : ∀ j, ((1 - u) * l) ^ 2 * (x j).1 ^ 2 ≤ (normalize sqrt x j).1 ^ 2 ∧
      (normalize sqrt x j).1 ^ 2 ≤ ((1 + u) * l) ^ 2 * (x j).1 ^ 2 := by
    intro j
    have h1 := hx.product j
    set y := (normalize sqrt x j).1
    set z := (x j).1 * l with hz
    have h2 : |z| - |y| ≤ |y - z| := by rw [abs_sub_comm]; exact abs_sub_abs_le_abs_sub _ _
    have h3 : |y| - |z| ≤ |y - z| := abs_sub_abs_le_abs_sub _ _
    have e : ∀ c : K, (c * l) ^ 2 * (x j).1 ^ 2 = (c * |z|) ^ 2 := by
      intro c
      rw [mul_pow c |z|, sq_abs, hz]
      ring
    rw [e, e, ← sq_abs y]
    exact ⟨pow_le_pow_left₀ (mul_nonneg hv.le (abs_nonneg _)) (by linarith) 2,
      pow_le_pow_left₀ (abs_nonneg _) (by linarith) 2⟩
  have t1 : ((1 - u) * l) ^ 2 * A ≤ ∑ j, (normalize sqrt x j).1 ^ 2 := by
    rw [hA, Finset.mul_sum]
    exact Finset.sum_le_sum fun j _ => (hc j).1
  have t2 : ∑ j, (normalize sqrt x j).1 ^ 2 ≤ ((1 + u) * l) ^ 2 * A := by
    rw [hA, Finset.mul_sum]
    exact Finset.sum_le_sum fun j _ => (hc j).2
  set L := ∑ j, (normalize sqrt x j).1 ^ 2
  have q1 : (1 - u) ^ (d + 3) * A ≤ q ^ 2 := by
    refine le_trans ?_ hx.sqrt_lower
    rw [show (1 - u) ^ (d + 3) * A = (1 - u) ^ 2 * ((1 - u) ^ (d + 1) * A) by ring]
    exact mul_le_mul_of_nonneg_left hs'.1 (sq_nonneg _)
  have q2 : q ^ 2 ≤ (1 + u) ^ (d + 3) * A := by
    refine le_trans hx.sqrt_upper ?_
    rw [show (1 + u) ^ (d + 3) * A = (1 + u) ^ 2 * ((1 + u) ^ (d + 1) * A) by ring]
    exact mul_le_mul_of_nonneg_left hs'.2 (sq_nonneg _)
  have hl0 : 0 ≤ l * q := hv.le.trans hl1
  have w1 : (1 - u) ^ 2 ≤ (l * q) ^ 2 := pow_le_pow_left₀ hv.le hl1 2
  have w2 : (l * q) ^ 2 ≤ (1 + u) ^ 2 := pow_le_pow_left₀ hl0 hl2 2
  have hll : 0 ≤ l ^ 2 := sq_nonneg l
  constructor
  · calc (1 - u) ^ 4 = (1 - u) ^ 2 * (1 - u) ^ 2 := by ring
      _ ≤ (1 - u) ^ 2 * (l * q) ^ 2 := mul_le_mul_of_nonneg_left w1 (sq_nonneg _)
      _ = ((1 - u) * l) ^ 2 * q ^ 2 := by ring
      _ ≤ ((1 - u) * l) ^ 2 * ((1 + u) ^ (d + 3) * A) := mul_le_mul_of_nonneg_left q2 (sq_nonneg _)
      _ = (1 + u) ^ (d + 3) * (((1 - u) * l) ^ 2 * A) := by ring
      _ ≤ _ := mul_le_mul_of_nonneg_left t1 (pow_nonneg hw.le _)
  · calc (1 - u) ^ (d + 3) * L ≤ (1 - u) ^ (d + 3) * (((1 + u) * l) ^ 2 * A) :=
          mul_le_mul_of_nonneg_left t2 (pow_nonneg hv.le _)
      _ = ((1 + u) * l) ^ 2 * ((1 - u) ^ (d + 3) * A) := by ring
      _ ≤ ((1 + u) * l) ^ 2 * q ^ 2 := mul_le_mul_of_nonneg_left q1 (sq_nonneg _)
      _ = (1 + u) ^ 2 * (l * q) ^ 2 := by ring
      _ ≤ (1 + u) ^ 2 * (1 + u) ^ 2 := mul_le_mul_of_nonneg_left w2 (sq_nonneg _)
      _ = (1 + u) ^ 4 := by ring

end

/-! ## float -/

/-- The error of any rounding. -/
theorem ieee_error (p : Nat) (e : ℤ) (x : ℚ) : |(ieee p e).rd x - x| ≤ 1 / 2 ^ (p + 1) * |x| + 2 ^ e / 2 := by
  have key : ∀ x : ℚ, 0 ≤ x → |roundTiny p e x - x| ≤ 1 / 2 ^ (p + 1) * |x| + 2 ^ e / 2 := by
    intro x hx
    rw [roundTiny_of_nonneg hx]
    unfold roundTinyPos
    have he : (0 : ℚ) < 2 ^ e := by positivity
    split_ifs with h
    · have h0 : 0 < x := lt_of_lt_of_le (by positivity) h
      have := roundBits_relative p x
      rw [roundBits_of_pos h0] at this
      linarith
    · have h1 := roundEven_error (x / 2 ^ e)
      have h2 : (roundEven (x / 2 ^ e) : ℚ) * 2 ^ e - x = ((roundEven (x / 2 ^ e) : ℚ) - x / 2 ^ e) * 2 ^ e := by
        field_simp
      rw [h2, abs_mul, abs_of_pos he]
      have h3 := mul_le_mul_of_nonneg_right h1 he.le
      have : (0 : ℚ) ≤ 1 / 2 ^ (p + 1) * |x| := by positivity
      linarith
  change |roundTiny p e x - x| ≤ _
  rcases le_total 0 x with h | h
  · exact key x h
  · have := key (-x) (by linarith)
    rw [roundTiny_neg, abs_neg] at this
    rw [← abs_neg]
    convert this using 2
    ring

theorem ieee_mulError (p : Nat) (e : ℤ) : (ieee p e).MulError (1 / 2 ^ (p + 1)) (2 ^ e / 2) :=
  fun a b => ieee_error p e (a.1 * b.1)

theorem up_259 : (1 + 1 / 2 ^ 24 : ℚ) ^ 259 ≤ 1 + 1 / 2 ^ 15 := by decide +kernel
theorem down_259 : (1 - 1 / 2 ^ 15 : ℚ) ≤ (1 - 1 / 2 ^ 24) ^ 259 := by decide +kernel
theorem up_2256 : (1 + 1 / 2 ^ 24 : ℚ) ^ 2256 ≤ 1 + 1 / 4000 := by decide +kernel
theorem down_512 : (1 - 1 / 4000 : ℚ) ≤ (1 - 1 / 2 ^ 24) ^ 512 := by decide +kernel

theorem nearUnit_numbers {P M L p m : ℚ} (hL : 0 ≤ L) (h1 : m ≤ P * L) (h2 : M * L ≤ p) (hP : P ≤ 1 + 1 / 2 ^ 15)
    (hM : 1 - 1 / 2 ^ 15 ≤ M) (hp : p ≤ 1 + 1 / 2 ^ 20) (hm : 1 - 1 / 2 ^ 20 ≤ m) : |L - 1| ≤ 1 / 2 ^ 14 := by
  have h3 := mul_le_mul_of_nonneg_right hP hL
  have h4 := mul_le_mul_of_nonneg_right hM hL
  rw [abs_le]
  constructor <;> linarith

theorem nearUnit_f32 {d : Nat} (hd : d ≤ 256) {sqrt : F32 → F32} {x : Pt F32 d} (hx : NormalizeOk sqrt (1 / 2 ^ 24) x) :
    NearUnit (1 / 2 ^ 14) (normalize sqrt x) := by
  obtain ⟨h1, h2⟩ := c96_normalize (u := 1 / 2 ^ 24) (ieee_relative 23 (-149)) (by norm_num) (by norm_num) hx
  exact nearUnit_numbers (Finset.sum_nonneg fun j _ => sq_nonneg _) h1 h2
    ((pow_le_pow_right₀ (by norm_num) (by omega)).trans up_259)
    (down_259.trans (pow_le_pow_of_le_one (by norm_num) (by norm_num) (by omega)))
    (by norm_num) (by norm_num)

theorem rotationError_numbers {P P' D ν X : ℚ} (hX : 0 ≤ X) (hν : 0 ≤ ν) (hνX : ν * 2 ^ 100 ≤ X) (hD : 0 ≤ D)
    (hD' : D ≤ 256) (hP : 1 ≤ P) (hP1 : P ≤ 1 + 1 / 2 ^ 15) (hP' : 0 ≤ P') (hP'1 : P' ≤ 2) :
    0 ≤ (1 + 1 / 2 ^ 24) * ((2 * (P - 1) * ((1 + 1 / 2 ^ 14) * X) + (2 * (D * P') + (1 + 1 / 2 ^ 24)) * ν) *
        (1 + 1 / 2 ^ 14) + D * ν) + 1 / 2 ^ 24 * ((1 + 2 * (1 + 1 / 2 ^ 14) ^ 2) * X) ∧
      (1 + 1 / 2 ^ 24) * ((2 * (P - 1) * ((1 + 1 / 2 ^ 14) * X) + (2 * (D * P') + (1 + 1 / 2 ^ 24)) * ν) *
        (1 + 1 / 2 ^ 14) + D * ν) + 1 / 2 ^ 24 * ((1 + 2 * (1 + 1 / 2 ^ 14) ^ 2) * X) ≤ X / 10000 := by
  have a0 : 0 ≤ P - 1 := by linarith
  constructor
  · positivity
  have a1 : (P - 1) * X ≤ 1 / 2 ^ 15 * X := mul_le_mul_of_nonneg_right (by linarith) hX
  have a2 : D * P' ≤ 256 * 2 := mul_le_mul hD' hP'1 hP' (by norm_num)
  have a3 : D * P' * ν ≤ 512 * ν := mul_le_mul_of_nonneg_right (by linarith) hν
  have a4 : D * ν ≤ 256 * ν := mul_le_mul_of_nonneg_right hD' hν
  have e : (1 + 1 / 2 ^ 24) * ((2 * (P - 1) * ((1 + 1 / 2 ^ 14) * X) + (2 * (D * P') + (1 + 1 / 2 ^ 24)) * ν) *
      (1 + 1 / 2 ^ 14) + D * ν) + 1 / 2 ^ 24 * ((1 + 2 * (1 + 1 / 2 ^ 14) ^ 2) * X) =
      (1 + 1 / 2 ^ 24) * (1 + 1 / 2 ^ 14) ^ 2 * 2 * ((P - 1) * X) +
        (1 + 1 / 2 ^ 24) * (1 + 1 / 2 ^ 14) * 2 * (D * P' * ν) + (1 + 1 / 2 ^ 24) ^ 2 * (1 + 1 / 2 ^ 14) * ν +
        (1 + 1 / 2 ^ 24) * (D * ν) + 1 / 2 ^ 24 * (1 + 2 * (1 + 1 / 2 ^ 14) ^ 2) * X := by ring
  rw [e]
  norm_num at a1 hνX ⊢
  linarith

theorem rotationError_f32 {d : Nat} (hd : d ≤ 256) {ν X : ℚ} (hX : 0 ≤ X) (hν : 0 ≤ ν) (hνX : ν * 2 ^ 100 ≤ X) :
    0 ≤ rotationError (1 / 2 ^ 24) ν d (1 + 1 / 2 ^ 14) X ∧
      rotationError (1 / 2 ^ 24) ν d (1 + 1 / 2 ^ 14) X ≤ X / 10000 :=
  rotationError_numbers hX hν hνX (Nat.cast_nonneg d) (by exact_mod_cast hd) (one_le_pow₀ (by norm_num))
    ((pow_le_pow_right₀ (by norm_num) (by omega : d + 3 ≤ 259)).trans up_259) (by positivity)
    ((pow_le_pow_right₀ (by norm_num) (by omega : d + 2 ≤ 259)).trans (up_259.trans (by norm_num)))

theorem budget_numbers {P P' M M' B X w : ℚ} (hB : 0 ≤ B) (hX : 0 ≤ X) (hw : 0 ≤ w) (hwX : w ≤ (X / 10 ^ 6) ^ 2 / 4)
    (hP1 : P ≤ 1 + 1 / 4000) (hP'0 : 0 ≤ P') (hP' : P' ≤ 1 + 1 / 10 ^ 6) (hM : 1 - 1 / 4000 ≤ M)
    (hM' : 1 - 1 / 10 ^ 6 ≤ M') :
    P * (P' * B ^ 2 + w) ≤ M * (M' * ((1 + 1 / 2000) * B + X / 10 ^ 6) ^ 2 - w) := by
  have c0 : 0 ≤ B * X := mul_nonneg hB hX
  have c1 : (1 + 1 / 2000) ^ 2 * B ^ 2 + (X / 10 ^ 6) ^ 2 ≤ ((1 + 1 / 2000) * B + X / 10 ^ 6) ^ 2 := by
    have : ((1 + 1 / 2000) * B + X / 10 ^ 6) ^ 2 =
        (1 + 1 / 2000) ^ 2 * B ^ 2 + (X / 10 ^ 6) ^ 2 + 2 * (1 + 1 / 2000) * (1 / 10 ^ 6) * (B * X) := by ring
    rw [this]
    have : 0 ≤ 2 * (1 + 1 / 2000) * (1 / 10 ^ 6) * (B * X) := by positivity
    linarith
  generalize ((1 + 1 / 2000) * B + X / 10 ^ 6) ^ 2 = b at *
  generalize (X / 10 ^ 6) ^ 2 = x at *
  have hBB : 0 ≤ B ^ 2 := sq_nonneg B
  generalize B ^ 2 = y at *
  have hb : 0 ≤ b := by nlinarith
  have d1 : P' * y + w ≤ (1 + 1 / 10 ^ 6) * y + w := by linarith [mul_le_mul_of_nonneg_right hP' hBB]
  have d2 : (1 - 1 / 10 ^ 6) * b - w ≤ M' * b - w := by linarith [mul_le_mul_of_nonneg_right hM' hb]
  have d3 : 0 ≤ (1 - 1 / 10 ^ 6) * b - w := by linarith
  calc P * (P' * y + w) ≤ (1 + 1 / 4000 : ℚ) * ((1 + 1 / 10 ^ 6) * y + w) :=
        mul_le_mul hP1 d1 (by positivity) (by norm_num)
    _ ≤ (1 - 1 / 4000) * ((1 - 1 / 10 ^ 6) * b - w) := by norm_num at c1 d3 ⊢; linarith
    _ ≤ _ := mul_le_mul hM d2 d3 (by linarith)

theorem final_numbers {E X a Z : ℚ} (hX : 0 ≤ X) (hE : 0 ≤ E) (hEX : E ≤ X / 10000) (ha : 0 ≤ a) (hZ : 0 ≤ Z)
    (h : (1 - 4 * (1 / 2 ^ 14) * (1 + 1 / 2 ^ 14)) * Z ≤
      ((1 + 1 / 2000) * ((1 + 4 * (1 / 2 ^ 14) * (1 + 1 / 2 ^ 14)) * a + 2 * E) + X / 10 ^ 6 + 2 * E) ^ 2) :
    Z ≤ ((1 + 1 / 500) * a + X / 2000) ^ 2 := by
  have h1 : Z ≤ ((1 + 1 / 5000) *
      ((1 + 1 / 2000) * ((1 + 4 * (1 / 2 ^ 14) * (1 + 1 / 2 ^ 14)) * a + 2 * E) + X / 10 ^ 6 + 2 * E)) ^ 2 := by
    rw [mul_pow]
    have h2 := mul_le_mul_of_nonneg_left h (by norm_num : (0 : ℚ) ≤ (1 + 1 / 5000) ^ 2)
    refine le_trans ?_ h2
    rw [← mul_assoc]
    exact le_mul_of_one_le_left hZ (by norm_num)
  refine h1.trans (pow_le_pow_left₀ (by positivity) ?_ 2)
  norm_num
  linarith

/-- C96 for `float`: up to 256 dimensions, trees of height up to 1000, points within `X` of the origin, normals from
`normalize`. The distance of the point that is returned exceeds the smallest one by at most one part in 500 and the
2000th part of `X`. -/
theorem c96_float_partial {d : Nat} {S : Std} {N : Num F32} {pts : Nat → Pt F32 d} {n indexBits maxLeafSize fuel : Nat}
    {normals : List (Pt F32 d)} {F : Forest F32 d} {sqrt : F32 → F32} (hd : d ≤ 256)
    (hnormals : ∀ g ∈ normals, NormalizeOk sqrt (1 / 2 ^ 24) g)
    (hn : 0 < n) (hm : 1 ≤ maxLeafSize ∧ maxLeafSize < 2 ^ (indexBits - 1)) (hN : N.low ≤ N.big)
    (hp : ∀ g ∈ normals, ∀ i < n, ∀ j, InRange N (rotatePoint (normalize sqrt g) (pts i) j))
    (h : Forest.make (metricL2Sq F32 d) S N pts n indexBits maxLeafSize fuel (normals.map (normalize sqrt)) = .ok F)
    (Q : Nat → StdQueue F32 (Tree (Branch2 F32 d))) (x : Pt F32 d) (maxLeaves fuel' : Nat) (hf : n < fuel')
    (hbig : ∀ g ∈ normals, ∀ i < n, computed (metricL2Sq F32 d) pts x (normalize sqrt g) i < N.big)
    {X : ℚ} (hX : 1 / 2 ^ 50 ≤ X) (hx : Within X x) (hpts : ∀ i < n, Within X (pts i))
    (t : RotTree F32 d) (ht : t ∈ F.trees) (hh : Spec.height t.data.root ≤ 1000)
    (hl : (ranges t.data.root).length ≤ maxLeaves) (nn : Neighbor F32) :
    ∃ res, F.searchNn Q fuel' x maxLeaves nn = .ok res ∧ res.index < n ∧
      ∀ a, 0 ≤ a → (∃ i < n, l2Sq ((ieee 23 (-149)).exactPt x) ((ieee 23 (-149)).exactPt (pts i)) ≤ a ^ 2) →
        l2Sq ((ieee 23 (-149)).exactPt x) ((ieee 23 (-149)).exactPt (pts res.index)) ≤
          ((1 + 1 / 500) * a + X / 2000) ^ 2 := by
  have hX0 : 0 ≤ X := le_trans (by norm_num) hX
  have hν1 : (2 ^ (-149 : ℤ) / 2 : ℚ) * 2 ^ 100 ≤ X := le_trans (by norm_num) hX
  obtain ⟨hE0, hE1⟩ := rotationError_f32 hd hX0 (ν := 2 ^ (-149 : ℤ) / 2) (by positivity) hν1
  obtain ⟨res, h1, h2, h3⟩ := c96_partial (u := 1 / 2 ^ 24) (ν := 2 ^ (-149 : ℤ) / 2) (η := 1 / 2 ^ 14) (X := X)
    (ieee_relative 23 (-149)) (ieee_mulError 23 (-149)) (by norm_num) (by norm_num) (by positivity)
    (by decide +kernel) hn hm hN
    (by
      intro r hr
      obtain ⟨g, hg, rfl⟩ := List.mem_map.1 hr
      exact hp g hg) h Q x maxLeaves fuel' hf
    (by
      intro r hr
      obtain ⟨g, hg, rfl⟩ := List.mem_map.1 hr
      exact hbig g hg) hX0
    (by
      intro r hr
      obtain ⟨g, hg, rfl⟩ := List.mem_map.1 hr
      exact nearUnit_f32 hd (hnormals g hg)) hx hpts t ht hl nn
  refine ⟨res, h1, h2, fun a ha hex => ?_⟩
  have hw : (d : ℚ) * (2 ^ (-149 : ℤ) / 2) ≤ (X / 10 ^ 6) ^ 2 / 4 := by
    have g1 : (d : ℚ) * (2 ^ (-149 : ℤ) / 2) ≤ 256 * (2 ^ (-149 : ℤ) / 2) :=
      mul_le_mul_of_nonneg_right (by exact_mod_cast hd) (by positivity)
    have g2 : (1 / 2 ^ 50 / 10 ^ 6 : ℚ) ^ 2 ≤ (X / 10 ^ 6) ^ 2 :=
      pow_le_pow_left₀ (by norm_num) (div_le_div_of_nonneg_right hX (by norm_num)) 2
    have g3 : (256 * (2 ^ (-149 : ℤ) / 2) : ℚ) ≤ (1 / 2 ^ 50 / 10 ^ 6 : ℚ) ^ 2 / 4 := by decide +kernel
    exact g1.trans (g3.trans (div_le_div_of_nonneg_right g2 (by norm_num)))
  have hB : 0 ≤ (1 + 4 * (1 / 2 ^ 14) * (1 + 1 / 2 ^ 14)) * a +
      2 * rotationError (1 / 2 ^ 24) (2 ^ (-149 : ℤ) / 2) d (1 + 1 / 2 ^ 14) X := by positivity
  refine final_numbers hX0 hE0 hE1 ha (Finset.sum_nonneg fun j _ => sq_nonneg _) (h3 a _ ha (by positivity) hex ?_)
  exact budget_numbers hB hX0 (by positivity) hw
    ((pow_le_pow_right₀ (by norm_num) (by omega)).trans up_2256) (by positivity) (by norm_num)
    (down_512.trans (pow_le_pow_of_le_one (by norm_num) (by norm_num) (by omega))) (by norm_num)

/-- A case that meets the hypotheses of `c96_float_partial`: two trees over five points with the normals
(3, 4) and (4, -3), normalised. -/
def fivePoints : Nat → Pt F32 2
  | 0 => ![f32 0, f32 0]
  | 1 => ![f32 1, f32 7]
  | 2 => ![f32 5, f32 2]
  | 3 => ![f32 3, (ieee 23 (-149)).ofK (1 / 10)]
  | _ => ![f32 6, f32 6]

def fiveNormals : List (Pt F32 2) := [![f32 3, f32 4], ![f32 4, f32 (-3)]]

def fiveForest : Outcome (Forest F32 2) :=
  Forest.make (metricL2Sq F32 2) Ref.std f32Num fivePoints 5 32 2 30 (fiveNormals.map (normalize fun _ => f32 5))

theorem fiveNormals_ok : ∀ g ∈ fiveNormals, NormalizeOk (fun _ => f32 5) (1 / 2 ^ 24) g := by
  intro g hg
  simp only [fiveNormals, List.mem_cons, List.not_mem_nil, or_false] at hg
  rcases hg with rfl | rfl <;>
    exact ⟨by decide +kernel, by decide +kernel, by decide +kernel, by decide +kernel, by decide +kernel,
      by decide +kernel⟩

example (x : Pt F32 2) (hx : Within 20 x) (hbig : ∀ g ∈ fiveNormals, ∀ i < 5,
    computed (metricL2Sq F32 2) fivePoints x (normalize (fun _ => f32 5) g) i < f32Num.big) (nn : Neighbor F32) :
    ∃ F, fiveForest = .ok F ∧ ∃ res, F.searchNn (fun _ => refQueue F32 _) 6 x 3 nn = .ok res ∧ res.index < 5 ∧
      ∀ a, 0 ≤ a → (∃ i < 5, l2Sq ((ieee 23 (-149)).exactPt x) ((ieee 23 (-149)).exactPt (fivePoints i)) ≤ a ^ 2) →
        l2Sq ((ieee 23 (-149)).exactPt x) ((ieee 23 (-149)).exactPt (fivePoints res.index)) ≤
          ((1 + 1 / 500) * a + 20 / 2000) ^ 2 := by
  obtain ⟨F, h1, h2⟩ := Outcome.exists_of_check (x := fiveForest) (p := fun F => decide (F.trees.length = 2) &&
    F.trees.all fun t => decide (Spec.height t.data.root ≤ 1000 ∧ (ranges t.data.root).length ≤ 3))
    (by decide +kernel)
  rw [Bool.and_eq_true] at h2
  have h3 := of_decide_eq_true h2.1
  obtain ⟨t, ht⟩ := List.exists_mem_of_length_pos (by omega : 0 < F.trees.length)
  have h4 := of_decide_eq_true (List.all_eq_true.1 h2.2 t ht)
  exact ⟨F, h1, c96_float_partial (by norm_num) fiveNormals_ok (by norm_num) (by norm_num) (by decide +kernel)
    (by unfold InRange; decide +kernel) h1 (fun _ => refQueue F32 _) x 3 6 (by norm_num) hbig (by norm_num) hx
    (by unfold Within; decide +kernel) t ht h4.1 h4.2 nn⟩

/-- The same without a free query: all the hypotheses hold for the query (4, 1). -/
example : Within 20 (![f32 4, f32 1] : Pt F32 2) ∧ ∀ g ∈ fiveNormals, ∀ i < 5,
    computed (metricL2Sq F32 2) fivePoints ![f32 4, f32 1] (normalize (fun _ => f32 5) g) i < f32Num.big := by
  constructor
  · unfold Within; decide +kernel
  · decide +kernel

/-! ## What goes wrong -/

/-- Two points far from the origin, a quarter apart. -/
def farPair : Nat → Pt F32 2
  | 0 => ![f32 (2 ^ 24), (ieee 23 (-149)).ofK (1 / 4)]
  | _ => ![f32 (2 ^ 24), 0]

/-- The unit vector (0.6, 0.8), rounded. -/
def normal34 : Pt F32 2 := ![(ieee 23 (-149)).ofK (3 / 5), (ieee 23 (-149)).ofK (4 / 5)]

/-- A forest of one tree. -/
def farForest : Outcome (Forest F32 2) :=
  Forest.make (metricL2Sq F32 2) Ref.std f32Num farPair 2 32 2 10 [normal34]

/-- C96: the query is point 1. The forest returns point 0 instead and claims that its distance is zero; it is a
quarter (squared: 1/16). All leaves are visited. -/
theorem c96_false : ∃ F, farForest = .ok F ∧ F.searchNn (fun _ => refQueue F32 _) 6 (farPair 1) 5 ⟨9, 0⟩ = .ok ⟨0, 0⟩ ∧
    l2Sq ((ieee 23 (-149)).exactPt (farPair 1)) ((ieee 23 (-149)).exactPt (farPair 0)) = 1 / 16 ∧
    l2Sq ((ieee 23 (-149)).exactPt (farPair 1)) ((ieee 23 (-149)).exactPt (farPair 1)) = 0 := by
  obtain ⟨F, h1, h2⟩ := Outcome.exists_of_check (x := farForest) (p := fun F =>
    (F.searchNn (fun _ => refQueue F32 _) 6 (farPair 1) 5 ⟨9, 0⟩).check fun r => decide (r = ⟨0, 0⟩)) (by decide +kernel)
  obtain ⟨r, h3, h4⟩ := Outcome.exists_of_check h2
  rw [of_decide_eq_true h4] at h3
  exact ⟨F, h1, h3, by decide +kernel, by decide +kernel⟩

end Pico.Props
