import Verif.Props.MaxNormTight
import Verif.Props.Nearest
import Verif.Props.Builder

/-!
# C149: how far off an approximate search may be

The searches with a ratio promise (C05 to C07) that nothing is worse by more than the ratio. Here: in two or more dimensions
every smaller error occurs, with two points; on a line the approximate nearest neighbor is the nearest one, unless the tree
has empty leaves.
-/

namespace Pico.Props
open Spec

section Attained
variable {K : Type} [Field K] [LinearOrder K] [IsStrictOrderedRing K] {d : Nat} {N : Num K}

/-- Point 0 is `s` along axis 1, point 1 is `p` along axis 0. -/
def axisPts (d : Nat) (s p : K) (k : Nat) : Pt K d := fun j =>
  if k = 0 then (if (j : Nat) = 1 then s else 0) else if (j : Nat) = 0 then p else 0

/-- Sliding midpoint rule, one point per leaf; the start bounds are longest along axis 0. -/
def axisOpts (S : Std) (d : Nat) (s p : K) : BuildOpts K d :=
  ⟨S, .sliding, .maxLeafSize 1, .given (fun j => if (j : Nat) = 0 then p / 2 - (p + s) else 0)
    (fun j => if (j : Nat) = 0 then p / 2 + (p + s) else s), 32⟩

/-- The configuration of the builder. -/
abbrev axisCfg (S : Std) (N : Num K) (d : Nat) (s p : K) : BuildCfg K d (Branch1 K d) :=
  KdTree.cfg (euclideanTag K d) N (axisPts d s p) (axisOpts S d s p)

variable {s p : K}

theorem axis_bounds (hs : 0 < s) (hp : 0 < p) (hbig : 2 * (p + s) < N.big) (hlow : N.low < -(2 * (p + s))) (S : Std)
    (n : Nat) (j : Fin d) :
    (boxFromBounds N (axisPts d s p) n (axisOpts S d s p).bounds).min j = (if (j : Nat) = 0 then p / 2 - (p + s) else 0) ∧
    (boxFromBounds N (axisPts d s p) n (axisOpts S d s p).bounds).max j = (if (j : Nat) = 0 then p / 2 + (p + s) else s) := by
  by_cases hj : (j : Nat) = 0
  · have e1 : p / 2 - (p + s) < N.big := by linarith
    have e2 : p / 2 - (p + s) > N.low := by linarith
    have e3 : ¬ p / 2 + (p + s) < p / 2 - (p + s) := by intro h; linarith
    have e4 : p / 2 + (p + s) > p / 2 - (p + s) := by linarith
    simp only [boxFromBounds, axisOpts, Box.fitPt, Box.inverseMax, hj, e1, e2, e3, e4, if_true, if_false, and_self]
  · have e1 : 0 < N.big := by linarith
    have e2 : 0 > N.low := by linarith
    have e3 : ¬ s < 0 := not_lt.2 hs.le
    simp only [boxFromBounds, axisOpts, Box.fitPt, Box.inverseMax, hj, e1, e2, e3, gt_iff_lt, hs, if_true, if_false, and_self]

theorem axis_leafBox {S : Std} (hs : 0 < s) (hp : 0 < p) (hbig : 2 * (p + s) < N.big) (hlow : N.low < -(2 * (p + s)))
    (k : Nat) (b : Box K d) (j : Fin d) :
    (leafBox (axisCfg S N d s p) [k] b).min j = axisPts d s p k j ∧
      (leafBox (axisCfg S N d s p) [k] b).max j = axisPts d s p k j := by
  have h : axisPts d s p k j < N.big ∧ N.low < axisPts d s p k j := by
    unfold axisPts
    split_ifs <;> constructor <;> linarith
  constructor
  · show (if axisPts d s p k j < N.big then axisPts d s p k j else N.big) = _
    rw [if_pos h.1]
  · show (if axisPts d s p k j > N.low then axisPts d s p k j else N.low) = _
    rw [if_pos h.2]

theorem axis_splitter {S : Std} (hs : 0 < s) (hp : 0 < p) (hN : ∀ x, N.divTwo x = x / 2) (hbig : 2 * (p + s) < N.big)
    (hlow : N.low < -(2 * (p + s))) (hd : 0 < d) :
    splitter (axisCfg S N d s p) [0, 1] (boxFromBounds N (axisPts d s p) 2 (axisOpts S d s p).bounds) =
      .ok ⟨[0, 1], 1, ⟨0, hd⟩, p / 2⟩ := by
  have hb := axis_bounds (d := d) hs hp hbig hlow S 2
  generalize boxFromBounds N (axisPts d s p) 2 (axisOpts S d s p).bounds = b at hb
  have hsd : b.max ⟨0, hd⟩ - b.min ⟨0, hd⟩ = 2 * (p + s) := by
    rw [(hb _).1, (hb _).2]; simp; ring
  have hside : b.maxSide N = (some ⟨0, hd⟩, 2 * (p + s)) := by
    rcases h : b.maxSide N with ⟨_ | dim, delta⟩
    · have := maxSide_none (by rw [h]) (⟨0, hd⟩ : Fin d)
      linarith
    · obtain ⟨h1, _, _, h4⟩ := maxSide_some h
      have h5 := h4 ⟨0, hd⟩
      rw [hsd, h1, (hb dim).1, (hb dim).2] at h5
      have hdim : dim = ⟨0, hd⟩ := by
        by_contra hne
        have : (dim : Nat) ≠ 0 := fun h => hne (Fin.ext h)
        rw [if_neg this, if_neg this] at h5
        linarith
      subst hdim
      rw [h1, hsd]
  have p0 : coordBelow (axisPts d s p) ⟨0, hd⟩ (p / 2) 0 = true := by
    simp only [coordBelow, axisPts, if_true, decide_eq_true_eq]; simp; exact hp
  have p1 : coordBelow (axisPts d s p) ⟨0, hd⟩ (p / 2) 1 = false := by
    simp only [coordBelow, axisPts, if_true, decide_eq_false_iff_not, one_ne_zero, if_false]; intro h; linarith
  have hpt := partition_two S p0 p1
  have hval : N.divTwo (2 * (p + s)) + b.min ⟨0, hd⟩ = p / 2 := by
    rw [hN, (hb _).1]; simp
  show splitSliding S N (axisPts d s p) [0, 1] _ = _
  unfold splitSliding
  rw [hside]
  simp only [hval, hpt]
  simp

/-- The tree of the two points and any search from the origin whose visitor cannot reach point 1 after point 0. -/
theorem axis_search (S : Std) (M : Metric K d) (hd : 2 ≤ d) (hs : 0 < s) (hp : 0 < p) (hN : ∀ x, N.divTwo x = x / 2)
    (hbig : 2 * (p + s) < N.big) (hlow : N.low < -(2 * (p + s))) :
    ∃ fuel T, KdTree.make (euclideanTag K d) M N (axisPts d s p) 2 (axisOpts S d s p) fuel = .ok T ∧ T.num = N ∧
      Representable N (axisPts d s p) 2 (axisOpts S d s p) ∧
      ∀ {σ : Type} (V : Visitor K σ) (st : σ), ¬ V.max (V.visit st 0 (M.dist (fun _ => 0) (axisPts d s p 0))) ≥ M.one p →
        T.searchNearest (fun _ => 0) V st = V.visit st 0 (M.dist (fun _ => 0) (axisPts d s p 0)) := by
  have hd0 : 0 < d := by omega
  have hcast : castIndex 32 1 = 1 := by decide
  have hsp := axis_splitter (S := S) hs hp hN hbig hlow hd0
  generalize hbdef : boxFromBounds N (axisPts d s p) 2 (axisOpts S d s p).bounds = b at hsp
  have hL : Created (axisCfg S N d s p) (0 + 1) 0 [0] (b.setMax ⟨0, hd0⟩ (p / 2)) (.leaf 0 1) [0] _ :=
    Created.leaf (seg := [0]) (by simp [isLeaf, KdTree.cfg, axisOpts, hcast])
  have hR : Created (axisCfg S N d s p) (0 + 1) 1 [1] (b.setMin ⟨0, hd0⟩ (p / 2)) (.leaf 1 2) [1] _ :=
    Created.leaf (seg := [1]) (by simp [isLeaf, KdTree.cfg, axisOpts, hcast])
  have hbr := Created.branch (C := axisCfg S N d s p) (depth := 0) (o := 0) (seg := [0, 1]) (box := b) (l := .leaf 0 1)
    (r := .leaf 1 2) (by simp [isLeaf, KdTree.cfg, axisOpts, hcast]) hsp hL hR
  obtain ⟨fuel, hf⟩ := createNode_of_created hbr
  have hf := hf fuel le_rfl
  have hL1 := (axis_leafBox (S := S) hs hp hbig hlow 0 (b.setMax ⟨0, hd0⟩ (p / 2)) ⟨0, hd0⟩).2
  have hR1 := (axis_leafBox (S := S) hs hp hbig hlow 1 (b.setMin ⟨0, hd0⟩ (p / 2)) ⟨0, hd0⟩).1
  have hL2 : axisPts d s p 0 ⟨0, hd0⟩ = 0 := by simp [axisPts]
  have hR2 : axisPts d s p 1 ⟨0, hd0⟩ = p := by simp [axisPts]
  rw [hL2] at hL1
  rw [hR2] at hR1
  generalize hBL : leafBox (axisCfg S N d s p) [0] (b.setMax ⟨0, hd0⟩ (p / 2)) = BL at hf hL1
  generalize hBR : leafBox (axisCfg S N d s p) [1] (b.setMin ⟨0, hd0⟩ (p / 2)) = BR at hf hR1
  refine ⟨fuel, ⟨euclideanTag K d, M, N, axisPts d s p, 2,
    ⟨[0, 1], b, .branch (setBranchEuclidean BL BR ⟨0, hd0⟩) (.leaf 0 1) (.leaf 1 2)⟩⟩, ?_, rfl,
    ⟨by linarith, ?_, ?_, nofun⟩, ?_⟩
  · unfold KdTree.make buildTree
    have hr : List.range 2 = [0, 1] := rfl
    rw [hr]
    show ((createNode (axisCfg S N d s p) fuel 0 0 [0, 1]
      (boxFromBounds N (axisPts d s p) 2 (axisOpts S d s p).bounds)).bind _).bind _ = _
    rw [hbdef, hf]
    show Outcome.ok _ = _
    rw [← hbdef]
    rfl
  · intro i _ j
    unfold axisPts
    split_ifs <;> constructor <;> linarith
  · intro j
    dsimp only
    split_ifs <;> refine ⟨⟨?_, ?_⟩, ?_, ?_⟩ <;> linarith
  · intro σ V st hv
    have hpick : pickEuclidean M (fun _ => 0) (setBranchEuclidean BL BR ⟨0, hd0⟩) = (true, M.one p) := by
      show (if BL.max ⟨0, hd0⟩ + BR.min ⟨0, hd0⟩ - 0 - 0 > 0 then (true, M.one (BR.min ⟨0, hd0⟩ - 0)) else _) = _
      rw [hL1, hR1, if_pos (by linarith), sub_zero]
    have hvis : visitAll V (fun i => M.dist (fun _ => 0) (axisPts d s p i)) [0] st =
        V.visit st 0 (M.dist (fun _ => 0) (axisPts d s p 0)) := rfl
    have hsl : slice [0, 1] 0 1 = [0] := rfl
    have hgt : ¬ V.max (V.visit st 0 (M.dist (fun _ => 0) (axisPts d s p 0))) ≥ 0 - 0 + M.one p := by
      simpa using hv
    simp only [KdTree.searchNearest, searchNearestRoot, searchNearest, euclideanTag, hpick, if_true, hsl, hvis]
    rw [if_neg hgt]

omit [IsStrictOrderedRing K] in
theorem axis_dist {M : Metric K d} (hM : EuclideanAdditive M) (h0 : M.one 0 = 0) (hd : 2 ≤ d) :
    M.dist (fun _ => 0) (axisPts d s p 0) = M.one s ∧ M.dist (fun _ => 0) (axisPts d s p 1) = M.one p := by
  have hneg : ∀ x : K, M.one (0 - x) = M.one x := fun x =>
    le_antisymm (hM.one_mono _ _ (by simp)) (hM.one_mono _ _ (by simp))
  constructor
  · rw [hM.dist_eq, Finset.sum_eq_single (⟨1, by omega⟩ : Fin d)]
    · rw [hneg]; simp [axisPts]
    · intro j _ hj
      have : (j : Nat) ≠ 1 := fun h => hj (Fin.ext h)
      rw [hneg]; simp [axisPts, this, h0]
    · simp
  · rw [hM.dist_eq, Finset.sum_eq_single (⟨0, by omega⟩ : Fin d)]
    · rw [hneg]; simp [axisPts]
    · intro j _ hj
      have : (j : Nat) ≠ 0 := fun h => hj (Fin.ext h)
      rw [hneg]; simp [axisPts, this, h0]
    · simp

/-- Any metric that adds over the axes: the approximate nearest neighbor is at `M.one s` although there is a point at
`M.one p`, as long as the ratio allows it. -/
theorem c149_nn (S : Std) {M : Metric K d} (hM : EuclideanAdditive M) (h0 : M.one 0 = 0) (hd : 2 ≤ d) (hs : 0 < s)
    (hp : 0 < p) (hN : ∀ x, N.divTwo x = x / 2) (hbig : 2 * (p + s) < N.big) (hlow : N.low < -(2 * (p + s))) {e : K}
    (hb : M.one s * (1 / e) < N.big) (hlt : M.one s * (1 / e) < M.one p) :
    ∃ (pts : Nat → Pt K d) (n : Nat) (o : BuildOpts K d) (fuel : Nat) (T : KdTree K d (Branch1 K d)) (q : Pt K d),
      o.S = S ∧ KdTree.make (euclideanTag K d) M N pts n o fuel = .ok T ∧ Representable N pts n o ∧
      ∃ i < n, ∃ j < n, (∀ nn, T.searchNnApprox q e nn = ⟨i, M.dist q (pts i) * (1 / e)⟩) ∧
        M.dist q (pts i) = M.one s ∧ M.dist q (pts j) = M.one p := by
  obtain ⟨fuel, T, h1, hTn, h2, h3⟩ := axis_search S M hd hs hp hN hbig hlow
  obtain ⟨d0, d1⟩ := axis_dist (s := s) (p := p) hM h0 hd
  refine ⟨_, _, _, fuel, T, fun _ => 0, rfl, h1, h2, 0, by omega, 1, by omega, fun nn => ?_, d0, d1⟩
  have hv : (approxNnVisitor e).visit (nnInit T.num nn) 0 (M.dist (fun _ => 0) (axisPts d s p 0)) =
      ⟨0, M.dist (fun _ => 0) (axisPts d s p 0) * (1 / e)⟩ := by
    show (if T.num.big > M.dist (fun _ => 0) (axisPts d s p 0) * (1 / e) then
      (⟨0, M.dist (fun _ => 0) (axisPts d s p 0) * (1 / e)⟩ : Neighbor K) else _) = _
    rw [hTn, d0, if_pos hb]
  have := h3 (approxNnVisitor e) (nnInit T.num nn) (by
    rw [hv, d0]
    exact not_le.2 hlt)
  rw [hv] at this
  exact this

/-- Any metric that adds over the axes: an approximate radius search may find nothing although there is a point at
`M.one p`, inside of the radius. -/
theorem c149_radius (S : Std) (sorter : StdSort (Neighbor K)) {M : Metric K d} (hM : EuclideanAdditive M)
    (h0 : M.one 0 = 0) (hd : 2 ≤ d) (hs : 0 < s) (hp : 0 < p) (hN : ∀ x, N.divTwo x = x / 2) (hbig : 2 * (p + s) < N.big)
    (hlow : N.low < -(2 * (p + s))) {e : K} (hlt : M.one s * (1 / e) < M.one p) :
    ∃ (pts : Nat → Pt K d) (n : Nat) (o : BuildOpts K d) (fuel : Nat) (T : KdTree K d (Branch1 K d)) (q : Pt K d),
      o.S = S ∧ KdTree.make (euclideanTag K d) M N pts n o fuel = .ok T ∧ Representable N pts n o ∧
      (∀ out sort, T.searchRadiusApprox sorter q (M.one s) e out sort = []) ∧ ∃ j < n, M.dist q (pts j) = M.one p := by
  obtain ⟨fuel, T, h1, hTn, h2, h3⟩ := axis_search S M hd hs hp hN hbig hlow
  obtain ⟨d0, d1⟩ := axis_dist (s := s) (p := p) hM h0 hd
  refine ⟨_, _, _, fuel, T, fun _ => 0, rfl, h1, h2, fun out sort => ?_, 1, by omega, d1⟩
  have hv : (approxRadiusVisitor e (M.one s)).visit (radiusInit out) 0 (M.dist (fun _ => 0) (axisPts d s p 0)) = [] := by
    show (if M.one s * (1 / e) > M.dist (fun _ => 0) (axisPts d s p 0) * (1 / e) then _ else []) = _
    rw [d0, if_neg (lt_irrefl _)]
  have := h3 (approxRadiusVisitor e (M.one s)) (radiusInit out) (not_le.2 hlt)
  rw [hv] at this
  unfold KdTree.searchRadiusApprox
  simp only [this]
  split_ifs
  · exact List.Perm.eq_nil (sorter.sort_perm _ _ strictWeak_neighborLt)
  · rfl

/-- C149: for `metric_l1` every error below the ratio occurs. -/
theorem c149_nn_l1 (S : Std) (hd : 2 ≤ d) (hN : ∀ x, N.divTwo x = x / 2) {c e : K} (hc : 1 ≤ c) (hce : c < e)
    (hbig : 4 * c < N.big) (hlow : N.low < -(4 * c)) :
    ∃ (pts : Nat → Pt K d) (n : Nat) (o : BuildOpts K d) (fuel : Nat) (T : KdTree K d (Branch1 K d)) (q : Pt K d),
      o.S = S ∧ KdTree.make (euclideanTag K d) (metricL1 K d) N pts n o fuel = .ok T ∧ Representable N pts n o ∧
      ∃ i < n, ∃ j < n, (∀ nn, T.searchNnApprox q e nn = ⟨i, l1 q (pts i) * (1 / e)⟩) ∧
        0 < l1 q (pts j) ∧ l1 q (pts i) = c * l1 q (pts j) := by
  have he : 0 < e := by linarith
  have h1 : (metricL1 K d).one c = c := by simp only [metricL1, sabs_eq]; exact abs_of_nonneg (by linarith)
  have h2 : (metricL1 K d).one 1 = 1 := by simp only [metricL1, sabs_eq]; exact abs_one
  have h3 : c * (1 / e) < 1 := by rw [mul_one_div, div_lt_one he]; exact hce
  obtain ⟨pts, n, o, fuel, T, q, ho, hT, hR, i, hi, j, hj, hs, hdi, hdj⟩ := c149_nn (N := N) (s := c) (p := 1) (e := e) S
    additive_l1 (by simp [metricL1, sabs_eq]) hd (by linarith) one_pos hN (by linarith) (by linarith)
    (by rw [h1]; linarith) (by rw [h1, h2]; exact h3)
  rw [h1] at hdi
  rw [h2] at hdj
  simp only [metricL1_dist] at hs hdi hdj
  exact ⟨pts, n, o, fuel, T, q, ho, hT, hR, i, hi, j, hj, hs, by rw [hdj]; exact one_pos, by rw [hdi, hdj, mul_one]⟩

/-- C149: for `metric_l2_squared`, with squared distances and a squared ratio. -/
theorem c149_nn_l2 (S : Std) (hd : 2 ≤ d) (hN : ∀ x, N.divTwo x = x / 2) {c e : K} (hc : 1 ≤ c) (hce : c * c < e)
    (hbig : 4 * c < N.big) (hlow : N.low < -(4 * c)) :
    ∃ (pts : Nat → Pt K d) (n : Nat) (o : BuildOpts K d) (fuel : Nat) (T : KdTree K d (Branch1 K d)) (q : Pt K d),
      o.S = S ∧ KdTree.make (euclideanTag K d) (metricL2Sq K d) N pts n o fuel = .ok T ∧ Representable N pts n o ∧
      ∃ i < n, ∃ j < n, (∀ nn, T.searchNnApprox q e nn = ⟨i, l2Sq q (pts i) * (1 / e)⟩) ∧
        0 < l2Sq q (pts j) ∧ l2Sq q (pts i) = c * c * l2Sq q (pts j) := by
  have he : 0 < e := by nlinarith
  have h3 : c * c * (1 / e) < 1 := by rw [mul_one_div, div_lt_one he]; exact hce
  obtain ⟨pts, n, o, fuel, T, q, ho, hT, hR, i, hi, j, hj, hs, hdi, hdj⟩ := c149_nn (N := N) (s := c) (p := 1) (e := e) S
    additive_l2Sq (by simp [metricL2Sq, squared]) hd (by linarith) one_pos hN (by linarith) (by linarith)
    (by simp only [metricL2Sq, squared]; linarith) (by simp only [metricL2Sq, squared]; linarith)
  have e1 : (metricL2Sq K d).one c = c * c := rfl
  have e2 : (metricL2Sq K d).one 1 = 1 := by simp [metricL2Sq, squared]
  rw [e1] at hdi
  rw [e2] at hdj
  simp only [metricL2Sq_dist] at hs hdi hdj
  exact ⟨pts, n, o, fuel, T, q, ho, hT, hR, i, hi, j, hj, hs, by rw [hdj]; exact one_pos, by rw [hdi, hdj, mul_one]⟩

/-- C149: for `metric_l1` an approximate radius search may miss a point at any distance between `r / e` and `r`. -/
theorem c149_radius_l1 (S : Std) (sorter : StdSort (Neighbor K)) (hd : 2 ≤ d) (hN : ∀ x, N.divTwo x = x / 2) {r ρ e : K}
    (hρ : 0 < ρ) (h1 : r / e < ρ) (h2 : ρ < r) (hbig : 4 * r < N.big) (hlow : N.low < -(4 * r)) :
    ∃ (pts : Nat → Pt K d) (n : Nat) (o : BuildOpts K d) (fuel : Nat) (T : KdTree K d (Branch1 K d)) (q : Pt K d),
      o.S = S ∧ KdTree.make (euclideanTag K d) (metricL1 K d) N pts n o fuel = .ok T ∧ Representable N pts n o ∧
      (∀ out sort, T.searchRadiusApprox sorter q r e out sort = []) ∧ ∃ j < n, l1 q (pts j) = ρ := by
  have e1 : (metricL1 K d).one r = r := by simp only [metricL1, sabs_eq]; exact abs_of_nonneg (by linarith)
  have e2 : (metricL1 K d).one ρ = ρ := by simp only [metricL1, sabs_eq]; exact abs_of_pos hρ
  obtain ⟨pts, n, o, fuel, T, q, ho, hT, hR, hs, j, hj, hdj⟩ := c149_radius (N := N) (s := r) (p := ρ) (e := e) S sorter
    additive_l1 (by simp [metricL1, sabs_eq]) hd (by linarith) hρ hN (by linarith) (by linarith)
    (by rw [e1, e2, mul_one_div]; exact h1)
  rw [e1] at hs
  rw [e2] at hdj
  simp only [metricL1_dist] at hdj
  exact ⟨pts, n, o, fuel, T, q, ho, hT, hR, hs, j, hj, hdj⟩

/-- In the plane with the ratio 3: a neighbor that is 5/2 times as far away as the nearest one. -/
example (S : Std) : ∃ (pts : Nat → Pt Rat 2) (n : Nat) (o : BuildOpts Rat 2) (fuel : Nat) (T : KdTree Rat 2 (Branch1 Rat 2))
    (q : Pt Rat 2), o.S = S ∧ KdTree.make (euclideanTag Rat 2) (metricL1 Rat 2) Ref.ratNum pts n o fuel = .ok T ∧
      Representable Ref.ratNum pts n o ∧
      ∃ i < n, ∃ j < n, (∀ nn, T.searchNnApprox q 3 nn = ⟨i, l1 q (pts i) * (1 / 3)⟩) ∧
        0 < l1 q (pts j) ∧ l1 q (pts i) = 5 / 2 * l1 q (pts j) :=
  c149_nn_l1 S le_rfl (fun _ => rfl) (by norm_num) (by norm_num) (by norm_num [Ref.ratNum]) (by norm_num [Ref.ratNum])

end Attained

section Line
variable {α : Type} [Field α] [LinearOrder α] [IsStrictOrderedRing α] {d : Nat} {β : Type}

omit [Field α] [IsStrictOrderedRing α] in
theorem foldl_fitPt_attained (pts : Nat → Pt α d) (j : Fin d) (l : List Nat) (b : Box α d) :
    ((l.foldl (fun b i => b.fitPt (pts i)) b).max j = b.max j ∨
      ∃ i ∈ l, pts i j = (l.foldl (fun b i => b.fitPt (pts i)) b).max j) ∧
    ((l.foldl (fun b i => b.fitPt (pts i)) b).min j = b.min j ∨
      ∃ i ∈ l, pts i j = (l.foldl (fun b i => b.fitPt (pts i)) b).min j) := by
  induction l generalizing b with
  | nil => exact ⟨.inl rfl, .inl rfl⟩
  | cons a l ih =>
    obtain ⟨h1, h2⟩ := ih (b.fitPt (pts a))
    rw [List.foldl_cons]
    constructor
    · rcases h1 with h1 | ⟨i, hi, h1⟩
      · rw [h1]
        show (if pts a j > b.max j then pts a j else b.max j) = _ ∨ _
        by_cases h : pts a j > b.max j
        · right; exact ⟨a, by simp, (if_pos h).symm⟩
        · left; exact if_neg h
      · exact .inr ⟨i, by simp [hi], h1⟩
    · rcases h2 with h2 | ⟨i, hi, h2⟩
      · rw [h2]
        show (if pts a j < b.min j then pts a j else b.min j) = _ ∨ _
        by_cases h : pts a j < b.min j
        · right; exact ⟨a, by simp, (if_pos h).symm⟩
        · left; exact if_neg h
      · exact .inr ⟨i, by simp [hi], h2⟩

omit [IsStrictOrderedRing α] in
/-- Without empty leaves the sides of a node box go through points of the node. -/
theorem created_attained {C : BuildCfg α d β} (hr : C.rule ≠ .midpoint) (hst : StopOk C) {depth : Int} {o : Nat}
    {seg : List Nat} {box : Box α d} {t : Tree β} {seg' : List Nat} {box' : Box α d}
    (h : Created C depth o seg box t seg' box') (hp : ∀ i ∈ seg, ∀ j, InRange C.N (C.pts i j)) (hn : 0 < seg.length)
    (j : Fin d) : (∃ i ∈ seg', C.pts i j = box'.max j) ∧ ∃ i ∈ seg', C.pts i j = box'.min j := by
  induction h with
  | @leaf depth o seg box hl =>
    obtain ⟨a, ha⟩ := List.exists_mem_of_length_pos hn
    have hmem := leafBox_mem (C := C) (box := box) a ha j
    have hb : leafBox C seg box = computeBoundingBox C.N C.pts seg := by
      unfold leafBox
      split
      · rename_i h; exact absurd h hr
      · rfl
    rw [hb] at hmem ⊢
    obtain ⟨h1, h2⟩ := foldl_fitPt_attained C.pts j seg (Box.inverseMax C.N)
    constructor
    · rcases h1 with h1 | h1
      · exact ⟨a, ha, le_antisymm hmem.2 (h1.le.trans (hp a ha j).1)⟩
      · exact h1
    · rcases h2 with h2 | h2
      · exact ⟨a, ha, le_antisymm ((hp a ha j).2.trans h2.ge) hmem.1⟩
      · exact h2
  | @branch depth o seg box sp l r segL segR boxL boxR hl hs _ _ ih1 ih2 =>
    have hpos := split_pos hr hs (two_le_of_not_leaf hst hl)
    have hm := splitter_mem hs
    obtain ⟨⟨a, ha, ea⟩, a', ha', ea'⟩ := ih1 (fun i hi => hp i (hm.1 i hi)) (by rw [splitter_take_length hs]; exact hpos.1)
    obtain ⟨⟨b, hb, eb⟩, b', hb', eb'⟩ := ih2 (fun i hi => hp i (hm.2 i hi)) (by rw [splitter_drop_length hs]; omega)
    constructor
    · show ∃ i ∈ segL ++ segR, C.pts i j = if boxR.max j > boxL.max j then boxR.max j else boxL.max j
      split_ifs
      · exact ⟨b, by simp [hb], eb⟩
      · exact ⟨a, by simp [ha], ea⟩
    · show ∃ i ∈ segL ++ segR, C.pts i j = if boxR.min j < boxL.min j then boxR.min j else boxL.min j
      split_ifs
      · exact ⟨b', by simp [hb'], eb'⟩
      · exact ⟨a', by simp [ha'], ea'⟩

omit [IsStrictOrderedRing α] in
/-- A subtree without anything better leaves the neighbor as it is. -/
theorem approx_unchanged (splitDim : β → Fin d) (pick : β → Bool × α) (e : α) (dist : Nat → α) (v : List Nat) (t : Tree β)
    (nbd : α) (off : Pt α d) (s : Neighbor α) (h : ∀ i ∈ t.elems v, s.distance ≤ dist i * (1 / e)) :
    (searchNearest splitDim pick (approxNnVisitor e) dist v t nbd (off, s)).2 = s := by
  induction t generalizing nbd off with
  | leaf b e' =>
    simp only [Tree.elems] at h
    show visitAll _ dist (slice v b e') s = s
    generalize slice v b e' = l at h
    induction l with
    | nil => rfl
    | cons a l ih =>
      have ha : (approxNnVisitor e).visit s a (dist a) = s := if_neg (not_lt.2 (h a (by simp)))
      unfold visitAll at ih ⊢
      rw [List.foldl_cons, ha]
      exact ih fun i hi => h i (by simp [hi])
  | branch data l r ihl ihr =>
    have hL := fun nbd off => ihl nbd off fun i hi => h i (by simp [Tree.elems, hi])
    have hR := fun nbd off => ihr nbd off fun i hi => h i (by simp [Tree.elems, hi])
    simp only [searchNearest]
    cases (pick data).1
    · simp only [Bool.false_eq_true, if_false]
      split_ifs
      · rw [hR]; exact hL _ _
      · exact hR _ _
    · simp only [if_true]
      split_ifs
      · rw [hL]; exact hR _ _
      · exact hL _ _

omit [IsStrictOrderedRing α] in
theorem approx_leaf (e : α) (dist : Nat → α) (l : List Nat) (s : Neighbor α) :
    (visitAll (approxNnVisitor e) dist l s = s ∨
      ∃ i ∈ l, visitAll (approxNnVisitor e) dist l s = ⟨i, dist i * (1 / e)⟩) ∧
    (visitAll (approxNnVisitor e) dist l s).distance ≤ s.distance ∧
    ∀ k ∈ l, (visitAll (approxNnVisitor e) dist l s).distance ≤ dist k * (1 / e) := by
  induction l generalizing s with
  | nil => exact ⟨.inl rfl, le_rfl, by simp⟩
  | cons a l ih =>
    have hcons : visitAll (approxNnVisitor e) dist (a :: l) s =
        visitAll (approxNnVisitor e) dist l (if s.distance > dist a * (1 / e) then ⟨a, dist a * (1 / e)⟩ else s) := rfl
    rw [hcons]
    split_ifs with h
    · obtain ⟨h1, h2, h3⟩ := ih ⟨a, dist a * (1 / e)⟩
      refine ⟨.inr ?_, h2.trans h.le, fun k hk => ?_⟩
      · rcases h1 with h1 | ⟨i, hi, h1⟩
        · exact ⟨a, by simp, h1⟩
        · exact ⟨i, by simp [hi], h1⟩
      · rcases List.mem_cons.1 hk with rfl | hk
        · exact h2
        · exact h3 k hk
    · obtain ⟨h1, h2, h3⟩ := ih s
      refine ⟨?_, h2, fun k hk => ?_⟩
      · rcases h1 with h1 | ⟨i, hi, h1⟩
        · exact .inl h1
        · exact .inr ⟨i, by simp [hi], h1⟩
      · rcases List.mem_cons.1 hk with rfl | hk
        · exact h2.trans (not_lt.1 h)
        · exact h3 k hk

/-- On a line the child that is visited first has a nearest point, so that no error remains. -/
theorem approx_line {M : Metric α 1} (hM : EuclideanAdditive M) {C : BuildCfg α 1 (Branch1 α 1)} (hN : C.N.low ≤ C.N.big)
    (hsb : C.setBranch = setBranchEuclidean) (hr : C.rule ≠ .midpoint) (hst : StopOk C) {e : α} (he : 0 < e) (q : Pt α 1)
    {depth : Int} {o : Nat} {seg : List Nat} {box : Box α 1} {t : Tree (Branch1 α 1)} {seg' : List Nat} {box' : Box α 1}
    (h : Created C depth o seg box t seg' box') (hp : ∀ i ∈ seg, ∀ j, InRange C.N (C.pts i j)) (hn : 0 < seg.length)
    (pre post : List Nat) (ho : o = pre.length) (nbd : α) (off : Pt α 1) (s : Neighbor α)
    (hs : ∀ i ∈ seg', M.dist q (C.pts i) * (1 / e) < s.distance) :
    ∃ i ∈ seg', (searchNearest (fun b : Branch1 α 1 => b.splitDim) (pickEuclidean M q) (approxNnVisitor e)
        (fun i => M.dist q (C.pts i)) (pre ++ (seg' ++ post)) t nbd (off, s)).2 = ⟨i, M.dist q (C.pts i) * (1 / e)⟩ ∧
      ∀ k ∈ seg', M.dist q (C.pts i) ≤ M.dist q (C.pts k) := by
  have hie : 0 < 1 / e := one_div_pos.2 he
  have hdist : ∀ x : Pt α 1, M.dist q x = M.one (q 0 - x 0) := fun x => by rw [hM.dist_eq]; simp
  induction h generalizing pre post nbd off s with
  | @leaf depth o seg box hl =>
    subst ho
    simp only [searchNearest, slice_append]
    obtain ⟨h1, h2, h3⟩ := approx_leaf e (fun i => M.dist q (C.pts i)) seg s
    rcases h1 with h1 | ⟨i, hi, h1⟩
    · obtain ⟨a, ha⟩ := List.exists_mem_of_length_pos hn
      have := (h3 a ha).trans_lt (hs a ha)
      rw [h1] at this
      exact absurd this (lt_irrefl _)
    · refine ⟨i, hi, h1, fun k hk => ?_⟩
      have := h3 k hk
      rw [h1] at this
      exact le_of_mul_le_mul_right this hie
  | @branch depth o seg box sp l r segL segR boxL boxR hl hsplit cL cR ih1 ih2 =>
    have hpos := split_pos hr hsplit (two_le_of_not_leaf hst hl)
    have hm := splitter_mem hsplit
    have hpL : ∀ i ∈ sp.seg.take sp.pos, ∀ j, InRange C.N (C.pts i j) := fun i hi => hp i (hm.1 i hi)
    have hpR : ∀ i ∈ sp.seg.drop sp.pos, ∀ j, InRange C.N (C.pts i j) := fun i hi => hp i (hm.2 i hi)
    have hnL : 0 < (sp.seg.take sp.pos).length := by rw [splitter_take_length hsplit]; exact hpos.1
    have hnR : 0 < (sp.seg.drop sp.pos).length := by rw [splitter_drop_length hsplit]; omega
    have bL := cL.built hN (fun h => absurd h hr) hpL (fun h => absurd h hr)
    have bR := cR.built hN (fun h => absurd h hr) hpR (fun h => absurd h hr)
    have bB := (Created.branch hl hsplit cL cR).built hN (fun h => absurd h hr) hp (fun h => absurd h hr)
    have hlenL : segL.length = sp.pos := by
      rw [cL.perm.length_eq, splitter_take_length hsplit]
    have hdim : ∀ j : Fin 1, j = 0 := fun j => Subsingleton.elim _ _
    obtain ⟨⟨a, ha, ea⟩, _⟩ := created_attained hr hst cL hpL hnL 0
    obtain ⟨_, b, hb, eb⟩ := created_attained hr hst cR hpR hnR 0
    have hlr : boxL.max 0 ≤ boxR.min 0 := by
      have hso := (splitter_ok hsplit).1
      have h1 := hso.left_le a (cL.perm.mem_iff.1 ha)
      have h2 := hso.right_ge b (cR.perm.mem_iff.1 hb)
      rw [hdim sp.dim] at h1 h2
      rw [← ea, ← eb]
      exact h1.trans h2
    have memL := fun i hi => (bL.mem i hi 0).2
    have memR := fun i hi => (bR.mem i hi 0).1
    have elL : l.elems (pre ++ (segL ++ segR ++ post)) = segL := by
      have := bL.elems_eq pre (segR ++ post) ho
      simpa only [List.append_assoc] using this
    have elR : r.elems (pre ++ (segL ++ segR ++ post)) = segR := by
      have := bR.elems_eq (pre ++ segL) post (by simp [ho, hlenL])
      simpa only [List.append_assoc] using this
    have iL := fun nbd off s hs => ih1 hpL hnL pre (segR ++ post) ho nbd off s hs
    have iR := fun nbd off s hs => ih2 hpR hnR (pre ++ segL) post (by simp [ho, hlenL]) nbd off s hs
    have eqL : pre ++ (segL ++ (segR ++ post)) = pre ++ (segL ++ segR ++ post) := by simp
    have eqR : pre ++ segL ++ (segR ++ post) = pre ++ (segL ++ segR ++ post) := by simp
    rw [eqL] at iL
    rw [eqR] at iR
    generalize pre ++ (segL ++ segR ++ post) = v at *
    have hmono : ∀ x y, |q 0 - C.pts x 0| ≤ |q 0 - C.pts y 0| → M.dist q (C.pts x) ≤ M.dist q (C.pts y) := fun x y hxy => by
      rw [hdist, hdist]; exact hM.one_mono _ _ hxy
    rw [hsb, hdim sp.dim]
    by_cases hv : boxL.max 0 + boxR.min 0 - q 0 - q 0 > 0
    · have hpick : pickEuclidean M q (setBranchEuclidean boxL boxR 0) = (true, M.one (boxR.min 0 - q 0)) := if_pos hv
      obtain ⟨i, hi, hres, hmin⟩ := iL nbd off s fun i hi => hs i (by simp [hi])
      have hfar : ∀ k ∈ segR, M.dist q (C.pts i) ≤ M.dist q (C.pts k) := fun k hk => by
        refine (hmin a ha).trans (hmono a k ?_)
        have := memR k hk
        rw [ea]
        have h2 : C.pts k 0 - q 0 ≤ |q 0 - C.pts k 0| := by rw [abs_sub_comm]; exact le_abs_self _
        exact abs_le.2 ⟨by linarith, by linarith⟩
      refine ⟨i, by simp [hi], ?_, fun k hk => ?_⟩
      · simp only [searchNearest, hpick, if_true]
        rw [hres]
        have hun := fun nbd off => approx_unchanged (fun b : Branch1 α 1 => b.splitDim) (pickEuclidean M q) e
          (fun i => M.dist q (C.pts i)) v r nbd off ⟨i, M.dist q (C.pts i) * (1 / e)⟩ (by
            rw [elR]; intro k hk; exact mul_le_mul_of_nonneg_right (hfar k hk) hie.le)
        split_ifs
        · exact hun _ _
        · exact hres
      · rcases List.mem_append.1 hk with hk | hk
        · exact hmin k hk
        · exact hfar k hk
    · have hpick : pickEuclidean M q (setBranchEuclidean boxL boxR 0) = (false, M.one (boxL.max 0 - q 0)) := if_neg hv
      obtain ⟨i, hi, hres, hmin⟩ := iR nbd off s fun i hi => hs i (by simp [hi])
      have hfar : ∀ k ∈ segL, M.dist q (C.pts i) ≤ M.dist q (C.pts k) := fun k hk => by
        refine (hmin b hb).trans (hmono b k ?_)
        have := memL k hk
        rw [eb]
        have h2 : q 0 - C.pts k 0 ≤ |q 0 - C.pts k 0| := le_abs_self _
        exact abs_le.2 ⟨by linarith, by linarith⟩
      refine ⟨i, by simp [hi], ?_, fun k hk => ?_⟩
      · simp only [searchNearest, hpick, Bool.false_eq_true, if_false]
        rw [hres]
        have hun := fun nbd off => approx_unchanged (fun b : Branch1 α 1 => b.splitDim) (pickEuclidean M q) e
          (fun i => M.dist q (C.pts i)) v l nbd off ⟨i, M.dist q (C.pts i) * (1 / e)⟩ (by
            rw [elL]; intro k hk; exact mul_le_mul_of_nonneg_right (hfar k hk) hie.le)
        split_ifs
        · exact hun _ _
        · exact hres
      · rcases List.mem_append.1 hk with hk | hk
        · exact hfar k hk
        · exact hmin k hk

/-- C149: on a line, with the median and the sliding midpoint rule, the approximate nearest neighbor is a nearest one,
whatever the ratio. -/
theorem c149_line {M : Metric α 1} (hM : EuclideanAdditive M) {N : Num α} {pts : Nat → Pt α 1} {n : Nat}
    {o : BuildOpts α 1} {fuel : Nat} {T : KdTree α 1 (Branch1 α 1)}
    (h : KdTree.make (euclideanTag α 1) M N pts n o fuel = .ok T) (hR : Representable N pts n o) (hn : 0 < n)
    (hr : o.rule ≠ .midpoint) (q : Pt α 1) {e : α} (he : 0 < e) (hbig : ∀ i < n, M.dist q (pts i) / e < N.big)
    (nn : Neighbor α) :
    ∃ i < n, T.searchNnApprox q e nn = ⟨i, M.dist q (pts i) / e⟩ ∧ ∀ j < n, M.dist q (pts i) ≤ M.dist q (pts j) := by
  obtain ⟨box, hc⟩ := created_of_make h
  obtain ⟨htag, rfl, rfl, rfl, rfl, _⟩ := KdTree.make_ok h
  have hmem : ∀ i, i ∈ T.data.indices ↔ i < T.n := fun i => by rw [hc.perm.mem_iff, List.mem_range]
  have hlen : 0 < (List.range T.n).length := by simpa using hn
  obtain ⟨i, hi, h1, h2⟩ := approx_line hM hR.num rfl hr (stopOk_of_created hc hlen) he q hc
    (fun i hi => hR.points i (List.mem_range.1 hi)) hlen [] [] rfl 0 (fun _ => 0) (nnInit T.num nn)
    (fun i hi => by rw [mul_one_div]; exact hbig i ((hmem i).1 hi))
  simp only [List.nil_append, List.append_nil, mul_one_div] at h1
  refine ⟨i, (hmem i).1 hi, ?_, fun j hj => h2 j ((hmem j).2 hj)⟩
  unfold KdTree.searchNnApprox KdTree.searchNearest searchNearestRoot
  rw [htag]
  exact h1

end Line

/-- Three points on a line. -/
def holePts : Nat → Pt Rat 1 := fun i _ => ([0, 1, 10] : List Rat).getD i 0

/-- Midpoint rule, one point per leaf, bounds from 0 to 16. -/
def holeOpts (r : Rule) : BuildOpts Rat 1 := ⟨Ref.std, r, .maxLeafSize 1, .given (fun _ => 0) (fun _ => 16), 32⟩

/-- C149: with the midpoint rule not even on a line: an empty cell that ends close to the query hides that the points
before it are far. -/
theorem c149_midpoint_false : Representable Ref.ratNum holePts 3 (holeOpts .midpoint) ∧
    ∃ T, KdTree.make (euclideanTag Rat 1) (metricL1 Rat 1) Ref.ratNum holePts 3 (holeOpts .midpoint) 10 = .ok T ∧
      T.searchNnApprox (fun _ => 17 / 2) 6 ⟨0, 0⟩ = ⟨1, 15 / 2 / 6⟩ ∧
      (metricL1 Rat 1).dist (fun _ => 17 / 2) (holePts 1) = 15 / 2 ∧
      (metricL1 Rat 1).dist (fun _ => 17 / 2) (holePts 2) = 3 / 2 := by
  refine ⟨⟨by decide +kernel, by unfold InRange; decide +kernel, ?_, fun _ a b hab _ _ => ?_⟩, ?_⟩
  · intro j
    simp only [InRange, Ref.ratNum]
    norm_num
  · simp only [Ref.ratNum]
    constructor <;> linarith
  · obtain ⟨T, h, hp⟩ := Outcome.exists_of_check
      (x := KdTree.make (euclideanTag Rat 1) (metricL1 Rat 1) Ref.ratNum holePts 3 (holeOpts .midpoint) 10)
      (p := fun T => decide ((T.searchNnApprox (fun _ => 17 / 2) 6 ⟨0, 0⟩).index = 1 ∧
        (T.searchNnApprox (fun _ => 17 / 2) 6 ⟨0, 0⟩).distance = 15 / 2 / 6)) (by decide +kernel)
    obtain ⟨h1, h2⟩ := of_decide_eq_true hp
    refine ⟨T, h, ?_, by decide +kernel, by decide +kernel⟩
    generalize T.searchNnApprox (fun _ => 17 / 2) 6 ⟨0, 0⟩ = x at h1 h2
    cases x
    simp only at h1 h2
    rw [h1, h2]

/-- The same points with the sliding midpoint rule: the nearest point is found (`c149_line`). -/
example : ∃ T, KdTree.make (euclideanTag Rat 1) (metricL1 Rat 1) Ref.ratNum holePts 3 (holeOpts .sliding) 10 = .ok T ∧
    ∃ i < 3, T.searchNnApprox (fun _ => 17 / 2) 6 ⟨0, 0⟩ = ⟨i, (metricL1 Rat 1).dist (fun _ => 17 / 2) (holePts i) / 6⟩ ∧
      ∀ j < 3, (metricL1 Rat 1).dist (fun _ => 17 / 2) (holePts i) ≤ (metricL1 Rat 1).dist (fun _ => 17 / 2) (holePts j) := by
  obtain ⟨T, h, _⟩ := Outcome.exists_of_check
    (x := KdTree.make (euclideanTag Rat 1) (metricL1 Rat 1) Ref.ratNum holePts 3 (holeOpts .sliding) 10)
    (p := fun _ => true) (by decide +kernel)
  exact ⟨T, h, c149_line additive_l1 h ⟨by decide +kernel, by unfold InRange; decide +kernel, by
    intro j; simp only [InRange, Ref.ratNum]; norm_num, nofun⟩ (by decide) nofun _ (by norm_num)
    (by decide +kernel) _⟩

end Pico.Props
