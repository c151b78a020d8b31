import Verif.Proof.TopoRounding
import Verif.Props.Grid

/-!
# C70, C71: circles in floating point arithmetic

C70: one circle, any rounding, exact with respect to the computed distances.
C71: lines and circles with coordinates on a grid, exact.
-/

set_option linter.unusedSectionVars false

namespace Pico.Props

open Pico Spec

section
variable {K : Type} [Field K] [LinearOrder K] [IsStrictOrderedRing K] {R : Rounding K}

theorem stdMin_val (a b : R.F) : (stdMin a b).1 = min a.1 b.1 := by
  unfold stdMin
  split_ifs with h
  · rw [min_eq_right]; exact le_of_lt h
  · rw [min_eq_left]; exact not_lt.1 h

/-- The distance on the circle with every operation rounded. -/
def roundedCircle (R : Rounding K) (q p : Pt R.F 1) : K :=
  min |R.rd ((q 0).1 - (p 0).1)| (R.rd (R.rd 1 - |R.rd ((q 0).1 - (p 0).1)|))

theorem dist_so2_val (q p : Pt R.F 1) : ((metricSO2 R.F).dist q p).1 = roundedCircle R q p := by
  simp only [metricSO2, s1Distance, roundedCircle]
  rw [stdMin_val, R.val_sub, R.sabs_val, R.val_sub]
  rfl

/-- C70: searches on SO(2) are exact for every rounding, with respect to the rounded distances. -/
theorem c70_so2 {N : Num R.F} {pts : Nat → Pt R.F 1} {n : Nat} {o : BuildOpts R.F 1} {fuel : Nat}
    {T : KdTree R.F 1 (Branch2 R.F 1)}
    (h : KdTree.make (topologicalTag R.F 1) (metricSO2 R.F) N pts n o fuel = .ok T)
    (hR : Representable N pts n o) (hn : 0 < n) (q : Pt R.F 1)
    (hc : CircleOk (metricSO2 R.F).space pts n o q)
    (hbig : ∀ i < n, roundedCircle R q (pts i) < N.big.1) :
    ∃ dist : Nat → R.F, (∀ i, (dist i).1 = roundedCircle R q (pts i)) ∧
      (∀ nn, IsNN n dist (T.searchNn q nn)) ∧
      (∀ k prior, 0 < k → ∃ out, T.searchKnn q k prior = .ok out ∧ IsKnn n k dist out) ∧
      ∀ sorter r prior sort, IsRadius n dist r (T.searchRadius sorter q r prior sort) := by
  have L := R.circleLaws
  have hE := exactAt_circle L (topo_so2 L) (fun _ => rfl)
    (fun x y hx hy => by
      have h0 := L.s1_nonneg hx hy
      change s1Distance (x 0) (y 0) = sabs (s1Distance (x 0) (y 0))
      unfold sabs
      rw [if_neg (not_lt.2 h0)])
    h hR hn q hc
  have hb : ∀ i < n, (metricSO2 R.F).dist q (pts i) < N.big := by
    intro i hi
    rw [R.lt_iff, dist_so2_val]
    exact hbig i hi
  refine ⟨fun i => (metricSO2 R.F).dist q (pts i), fun i => dist_so2_val q (pts i), ?_, ?_, ?_⟩
  · intro nn; exact nn_of_exact h hE hn rfl hb nn
  · intro k prior hk
    obtain ⟨out, h1, h2, _⟩ := knn_of_exact h hE hn rfl hb k hk prior
    exact ⟨out, h1, h2⟩
  · intro sorter r prior sort
    exact (radius_of_exact h hE rfl sorter r prior sort).1

end

section
variable {K : Type} [Field K] [LinearOrder K] [IsStrictOrderedRing K] {R : Rounding K} {d : Nat}
  {c : K} {B L U : Nat}

/-- The distance along an axis is computed exactly. -/
theorem computedAxis_grid (hc : 0 < c) (hX : R.ExactUpTo c L) (hU : (U : K) * c = 1) (hUB : U ≤ 2 * B)
    (hB : 2 * B ≤ L) {x y : Pt R.F d} (hx : OnGrid c B x) (hy : OnGrid c B y) (s : OneSpace) (j : Fin d)
    (hs : s = .s1 → (0 ≤ x j ∧ x j ≤ 1) ∧ (0 ≤ y j ∧ y j ≤ 1)) :
    ∃ m : ℤ, 0 ≤ m ∧ m ≤ 2 * (B : ℤ) ∧ (computedAxis s (x j) (y j)).1 = m * c ∧
      axisDistance s (x j).1 (y j).1 = m * c := by
  obtain ⟨m, h1, e1, e2⟩ := R.grid_sub hX hB hx hy j
  have e3 : |(m : K) * c| = ((|m| : ℤ) : K) * c := by
    rw [abs_mul, abs_of_pos hc]; push_cast; rfl
  cases s with
  | r1 =>
    refine ⟨|m|, abs_nonneg m, h1, ?_, ?_⟩
    · change (sabs (x j - y j)).1 = _
      rw [R.sabs_val, e1, e3]
    · change |(x j).1 - (y j).1| = _
      rw [e2, e3]
  | s1 =>
    obtain ⟨⟨x0, x1⟩, y0, y1⟩ := hs rfl
    have hone : R.rd 1 = 1 := by
      have := hX U (by rw [Nat.abs_cast]; exact_mod_cast hUB.trans hB)
      push_cast at this
      rwa [hU] at this
    have x0' : 0 ≤ (x j).1 := x0
    have y0' : 0 ≤ (y j).1 := y0
    have x1' : (x j).1 ≤ 1 := by rw [← hone]; exact x1
    have y1' : (y j).1 ≤ 1 := by rw [← hone]; exact y1
    have hmU : |m| ≤ (U : ℤ) := by
      have : |(m : K) * c| ≤ U * c := by
        rw [hU, ← e2, abs_le]; constructor <;> linarith
      rw [e3] at this
      exact_mod_cast le_of_mul_le_mul_right this hc
    have e4 : R.rd (1 - ((|m| : ℤ) : K) * c) = 1 - ((|m| : ℤ) : K) * c := by
      have h5 := hX (U - |m|) (by
        rw [abs_of_nonneg (by omega)]
        have := abs_nonneg m
        omega)
      have e5 : (((U : ℤ) - |m| : ℤ) : K) * c = 1 - ((|m| : ℤ) : K) * c := by
        rw [← hU]; push_cast; ring
      rwa [e5] at h5
    have e6 : (1 : K) - ((|m| : ℤ) : K) * c = ((U - |m| : ℤ) : K) * c := by
      rw [← hU]; push_cast; ring
    have e7 : min (((|m| : ℤ) : K) * c) (1 - ((|m| : ℤ) : K) * c) = ((min |m| (U - |m|) : ℤ) : K) * c := by
      rw [e6, Int.cast_min, min_mul_of_nonneg _ _ hc.le]
    refine ⟨min |m| (U - |m|), le_min (abs_nonneg m) (by omega), (min_le_left _ _).trans h1, ?_, ?_⟩
    · change (s1Distance (x j) (y j)).1 = _
      unfold s1Distance
      dsimp only
      rw [stdMin_val, R.val_sub, R.sabs_val, e1, e3]
      change min _ (R.rd (R.rd 1 - _)) = _
      rw [hone, e4, e7]
    · change Spec.circle (x j).1 (y j).1 = _
      unfold Spec.circle
      rw [e2, e3, e7]

theorem squared_sabs (a : R.F) : squared (sabs a) = squared a := by
  unfold sabs
  split_ifs
  · exact R.squareLaws.neg_mul_neg a
  · rfl

/-- Sums of squares over lines and circles on a grid. -/
theorem exactAt_grid_topo {M : Metric R.F d} (hone : ∀ x, M.one x = squared x)
    (hdist : ∀ x y, M.dist x y = loopSum fun j => M.one (computedAxis (M.space j) (x j) (y j)))
    {N : Num R.F} {pts : Nat → Pt R.F d} {n : Nat} {o : BuildOpts R.F d} {fuel : Nat}
    {T : KdTree R.F d (Branch2 R.F d)} (hc : 0 < c) (hX : R.ExactUpTo c L) (hX2 : R.ExactUpTo (c ^ 2) L)
    (hU : (U : K) * c = 1) (hUB : U ≤ 2 * B) (hL : d * (2 * B) ^ 2 ≤ L)
    (h : KdTree.make (topologicalTag R.F d) M N pts n o fuel = .ok T)
    (hR : Representable N pts n o) (hn : 0 < n) (hr : o.rule ≠ .midpoint) (q : Pt R.F d)
    (hco : CircleOk M.space pts n o q) (hq : OnGrid c B q) (hp : ∀ i < n, OnGrid c B (pts i)) :
    ExactAt T q ∧ ∀ i < n, (M.dist q (pts i)).1 =
      ∑ j, axisDistance (M.space j) (q j).1 (pts i j).1 ^ 2 := by
  have hM : TopoMetric M := ⟨by rw [hone]; exact R.squareLaws.zero_mul_zero, fun x y h0 hxy => by
    rw [hone, hone]; exact R.squareLaws.mul_mono x y h0 hxy⟩
  have LL := R.circleLaws
  set term : Fin d → Nat → R.F := fun j i => M.one (computedAxis (M.space j) (q j) (pts i j)) with hterm'
  have hterm : ∀ i < n, ∀ j : Fin d, ∃ m : ℤ, 0 ≤ m ∧ m ≤ (2 * (B : ℤ)) ^ 2 ∧
      (term j i).1 = m * c ^ 2 ∧ axisDistance (M.space j) (q j).1 (pts i j).1 ^ 2 = m * c ^ 2 := by
    intro i hi j
    have hd : 0 < d := j.pos
    have h2 : (2 * B) ^ 2 ≤ L := by nlinarith
    have h3 : 2 * B ≤ L := by nlinarith
    obtain ⟨m, h0, h1, e1, e2⟩ := computedAxis_grid hc hX hU hUB h3 hq (hp i hi) (M.space j) j
      (fun hs => ⟨hco.query j hs, hco.points i hi j hs⟩)
    have hm2 : m ^ 2 ≤ (2 * (B : ℤ)) ^ 2 := sq_le_sq' (by omega) h1
    refine ⟨m ^ 2, sq_nonneg m, hm2, ?_, ?_⟩
    · change (M.one (computedAxis (M.space j) (q j) (pts i j))).1 = _
      rw [hone]
      change (computedAxis (M.space j) (q j) (pts i j) * computedAxis (M.space j) (q j) (pts i j)).1 = _
      rw [R.val_mul, e1]
      have e : (m : K) * c * (m * c) = ((m ^ 2 : ℤ) : K) * c ^ 2 := by push_cast; ring
      rw [e]
      refine hX2 _ ?_
      rw [abs_of_nonneg (sq_nonneg m)]
      refine hm2.trans ?_
      exact_mod_cast h2
    · rw [e2]
      push_cast
      ring
  have hc2 : 0 < c ^ 2 := by positivity
  have hG : ∀ i < n, ∀ j, (term j i).1 ∈ AddSubgroup.zmultiples (c ^ 2) := by
    intro i hi j
    obtain ⟨m, _, _, e, _⟩ := hterm i hi j
    rw [AddSubgroup.mem_zmultiples_iff]
    exact ⟨m, by rw [zsmul_eq_mul]; exact e.symm⟩
  have h0 : ∀ i < n, ∀ j, 0 ≤ (term j i).1 := by
    intro i hi j
    obtain ⟨m, hm, _, e, _⟩ := hterm i hi j
    rw [e]
    exact mul_nonneg (by exact_mod_cast hm) hc2.le
  have hlim : ∀ i < n, ∑ j, (term j i).1 ≤ L * c ^ 2 := by
    intro i hi
    have : ∀ j : Fin d, (term j i).1 ≤ ((2 * B) ^ 2 : ℕ) * c ^ 2 := by
      intro j
      obtain ⟨m, _, hm, e, _⟩ := hterm i hi j
      rw [e]
      refine mul_le_mul_of_nonneg_right ?_ hc2.le
      exact_mod_cast hm
    refine (Finset.sum_le_sum fun j _ => this j).trans ?_
    rw [Finset.sum_const, Finset.card_univ, Fintype.card_fin, nsmul_eq_mul, ← mul_assoc]
    refine mul_le_mul_of_nonneg_right ?_ hc2.le
    exact_mod_cast hL
  have E := R.exactSums hc2 hX2
  have hval : ∀ i < n, (M.dist q (pts i)).1 = ∑ j, (term j i).1 := by
    intro i hi
    rw [hdist]
    exact E.loopSum _ (hG i hi) (h0 i hi) (hlim i hi)
  have hg := guard_make (fun j x y => M.one (computedAxis (M.space j) x y))
    (fun dim mn mx v p hs hp => LL.boxDistance_le hM dim mn mx v p hs hp) h hR hn q hco
  obtain ⟨_, _, _, _, _, hb⟩ := KdTree.make_ok h
  obtain ⟨_, box, hcr⟩ := buildTree_created hb
  have hcd := hcr.guardCoordTopo (n := n) LL rfl hR.num hr hM q (fun i hi => List.mem_range.1 hi) hR.points
    [] [] rfl
  simp only [List.nil_append, List.append_nil] at hcd
  refine ⟨exactAt_sums E h hR hn q term hval hG h0 hlim hg hcd, fun i hi => ?_⟩
  rw [hval i hi]
  refine Finset.sum_congr rfl fun j _ => ?_
  obtain ⟨m, _, _, e1, e2⟩ := hterm i hi j
  rw [e1, e2]

/-- C71 for `metric_se2_squared`: all coordinates are multiples of `c`, `1 / c` is a whole number. -/
theorem c71_se2 {N : Num R.F} {pts : Nat → Pt R.F 3} {n : Nat} {o : BuildOpts R.F 3} {fuel : Nat}
    {T : KdTree R.F 3 (Branch2 R.F 3)} (hc : 0 < c) (hX : R.ExactUpTo c L) (hX2 : R.ExactUpTo (c ^ 2) L)
    (hU : (U : K) * c = 1) (hUB : U ≤ 2 * B) (hL : 3 * (2 * B) ^ 2 ≤ L)
    (h : KdTree.make (topologicalTag R.F 3) (metricSE2Sq R.F) N pts n o fuel = .ok T)
    (hR : Representable N pts n o) (hn : 0 < n) (hr : o.rule ≠ .midpoint) (q : Pt R.F 3)
    (hco : CircleOk (metricSE2Sq R.F).space pts n o q) (hq : OnGrid c B q) (hp : ∀ i < n, OnGrid c B (pts i))
    (hbig : ∀ i < n, Spec.se2Sq (R.exactPt q) (R.exactPt (pts i)) < N.big.1) :
    ∃ dist : Nat → R.F, (∀ i < n, (dist i).1 = Spec.se2Sq (R.exactPt q) (R.exactPt (pts i))) ∧
      (∀ nn, IsNN n dist (T.searchNn q nn)) ∧
      (∀ k prior, 0 < k → ∃ out, T.searchKnn q k prior = .ok out ∧ IsKnn n k dist out) ∧
      ∀ sorter r prior sort, IsRadius n dist r (T.searchRadius sorter q r prior sort) := by
  obtain ⟨hE, hv⟩ := exactAt_grid_topo (M := metricSE2Sq R.F) (fun _ => rfl)
    (by
      intro x y
      have e : (List.finRange 3) = [0, 1, 2] := by decide
      simp only [loopSum, e, List.foldl_cons, List.foldl_nil]
      change ((0 + squared (x 0 - y 0)) + squared (x 1 - y 1)) + squared (s1Distance (x 2) (y 2)) =
        ((0 + squared (sabs (x 0 - y 0))) + squared (sabs (x 1 - y 1))) + squared (s1Distance (x 2) (y 2))
      rw [squared_sabs, squared_sabs])
    hc hX hX2 hU hUB hL h hR hn hr q hco hq hp
  have hv' : ∀ i < n, ((metricSE2Sq R.F).dist q (pts i)).1 = Spec.se2Sq (R.exactPt q) (R.exactPt (pts i)) := by
    intro i hi
    rw [hv i hi, Fin.sum_univ_three]
    change |_| ^ 2 + |_| ^ 2 + Spec.circle _ _ ^ 2 = _
    rw [sq_abs, sq_abs]
    rfl
  have hb : ∀ i < n, (metricSE2Sq R.F).dist q (pts i) < N.big := by
    intro i hi
    rw [R.lt_iff, hv' i hi]
    exact hbig i hi
  refine ⟨fun i => (metricSE2Sq R.F).dist q (pts i), hv', ?_, ?_, ?_⟩
  · intro nn; exact nn_of_exact h hE hn rfl hb nn
  · intro k prior hk
    obtain ⟨out, h1, h2, _⟩ := knn_of_exact h hE hn rfl hb k hk prior
    exact ⟨out, h1, h2⟩
  · intro sorter r prior sort
    exact (radius_of_exact h hE rfl sorter r prior sort).1

/-- C71 for the torus metric of kd_tree_custom_metric.cpp. -/
theorem c71_t2 {N : Num R.F} {pts : Nat → Pt R.F d} {n : Nat} {o : BuildOpts R.F d} {fuel : Nat}
    {T : KdTree R.F d (Branch2 R.F d)} (hc : 0 < c) (hX : R.ExactUpTo c L) (hX2 : R.ExactUpTo (c ^ 2) L)
    (hU : (U : K) * c = 1) (hL : d * (2 * U) ^ 2 ≤ L)
    (h : KdTree.make (topologicalTag R.F d) (metricT2Sq R.F d) N pts n o fuel = .ok T)
    (hR : Representable N pts n o) (hn : 0 < n) (hr : o.rule ≠ .midpoint) (q : Pt R.F d)
    (hco : CircleOk (metricT2Sq R.F d).space pts n o q) (hq : OnGrid c U q) (hp : ∀ i < n, OnGrid c U (pts i))
    (hbig : ∀ i < n, ∑ j, Spec.circle (q j).1 (pts i j).1 ^ 2 < N.big.1) :
    ∃ dist : Nat → R.F, (∀ i < n, (dist i).1 = ∑ j, Spec.circle (q j).1 (pts i j).1 ^ 2) ∧
      (∀ nn, IsNN n dist (T.searchNn q nn)) ∧
      (∀ k prior, 0 < k → ∃ out, T.searchKnn q k prior = .ok out ∧ IsKnn n k dist out) ∧
      ∀ sorter r prior sort, IsRadius n dist r (T.searchRadius sorter q r prior sort) := by
  obtain ⟨hE, hv⟩ := exactAt_grid_topo (M := metricT2Sq R.F d) (fun _ => rfl) (fun x y => rfl)
    hc hX hX2 hU (by omega) hL h hR hn hr q hco hq hp
  have hb : ∀ i < n, (metricT2Sq R.F d).dist q (pts i) < N.big := by
    intro i hi
    rw [R.lt_iff, hv i hi]
    exact hbig i hi
  refine ⟨fun i => (metricT2Sq R.F d).dist q (pts i), hv, ?_, ?_, ?_⟩
  · intro nn; exact nn_of_exact h hE hn rfl hb nn
  · intro k prior hk
    obtain ⟨out, h1, h2, _⟩ := knn_of_exact h hE hn rfl hb k hk prior
    exact ⟨out, h1, h2⟩
  · intro sorter r prior sort
    exact (radius_of_exact h hE rfl sorter r prior sort).1

end

/-- `m / 256` in single precision. -/
def f256 (m : ℤ) : F32 := (ieee 23 (-149)).ofK (m / 256)

/-- Five angles (in turns). -/
def angles5 : Nat → Pt F32 1
  | 0 => ![f256 0]
  | 1 => ![f256 250]
  | 2 => ![(ieee 23 (-149)).ofK (1 / 3)]
  | 3 => ![f256 250]
  | _ => ![f256 100]

theorem circleOk_of {d n : Nat} {space : Fin d → OneSpace} {pts : Nat → Pt F32 d} {q : Pt F32 d}
    (h : ∀ i < n, ∀ j, space j = .s1 → 0 ≤ pts i j ∧ pts i j ≤ 1)
    (hq : ∀ j, space j = .s1 → 0 ≤ q j ∧ q j ≤ 1) : CircleOk space pts n (Ref.optsSliding F32 d) q where
  points := h
  query := hq
  bounds hr := by simp [Ref.optsSliding] at hr

/-- Across the start of the circle, with an angle that is no binary fraction. -/
example : ∃ T dist, KdTree.make (topologicalTag F32 1) (metricSO2 F32) f32Num angles5 5 (Ref.optsSliding F32 1) 10
      = .ok T ∧ IsNN 5 dist (T.searchNn ![(ieee 23 (-149)).ofK (9 / 10)] ⟨0, 0⟩) ∧
      (dist 2).1 ≠ 13 / 30 ∧ (dist 1).1 < (dist 0).1 := by
  obtain ⟨T, h1, -⟩ := Outcome.exists_of_check (x := KdTree.make (topologicalTag F32 1) (metricSO2 F32)
    f32Num angles5 5 (Ref.optsSliding F32 1) 10) (p := fun _ => true) (by decide +kernel)
  obtain ⟨dist, hd, h3, _⟩ := c70_so2 h1
    ⟨by decide +kernel, by
      have : ∀ i < 5, ∀ j, f32Num.low ≤ angles5 i j ∧ angles5 i j ≤ f32Num.big := by decide +kernel
      exact this, trivial, fun h => by simp [Ref.optsSliding] at h⟩ (by decide)
    ![(ieee 23 (-149)).ofK (9 / 10)] (circleOk_of (by decide +kernel) (by decide +kernel)) (by decide +kernel)
  refine ⟨T, dist, h1, h3 _, ?_, ?_⟩
  · rw [hd]; decide +kernel
  · rw [hd, hd]; decide +kernel

/-- Five poses. -/
def poses5 : Nat → Pt F32 3
  | 0 => ![f256 0, f256 0, f256 0]
  | 1 => ![f256 400, f256 (-100), f256 250]
  | 2 => ![f256 3, f256 500, f256 128]
  | 3 => ![f256 3, f256 500, f256 128]
  | _ => ![f256 (-511), f256 2, f256 77]

theorem f256_val {m : ℤ} (h : roundTiny 23 (-149) (m / 256) = m / 256) : (f256 m).1 = m * 2 ^ (-8 : ℤ) := by
  refine Eq.trans h ?_
  norm_num [div_eq_mul_inv]

theorem onGrid_f256 {a b e : ℤ} (ha : roundTiny 23 (-149) (a / 256) = a / 256) (hb : roundTiny 23 (-149) (b / 256) = b / 256)
    (he : roundTiny 23 (-149) (e / 256) = e / 256) (ha' : |a| ≤ 512) (hb' : |b| ≤ 512) (he' : |e| ≤ 512) :
    OnGrid ((2 : ℚ) ^ (-8 : ℤ)) 512 (![f256 a, f256 b, f256 e] : Pt F32 3) := by
  intro j
  fin_cases j
  · exact ⟨a, by exact_mod_cast ha', f256_val ha⟩
  · exact ⟨b, by exact_mod_cast hb', f256_val hb⟩
  · exact ⟨e, by exact_mod_cast he', f256_val he⟩

/-- Poses with coordinates of up to 2 in steps of 1/256: `3 * 1024^2 ≤ 2^24`. -/
example : ∃ T dist, KdTree.make (topologicalTag F32 3) (metricSE2Sq F32) f32Num poses5 5 (Ref.optsSliding F32 3) 10
      = .ok T ∧ IsNN 5 dist (T.searchNn ![f256 300, f256 (-77), f256 5] ⟨0, 0⟩) ∧
      (dist 1).1 = (100 ^ 2 + 23 ^ 2 + 11 ^ 2) / 256 ^ 2 := by
  obtain ⟨T, h1, -⟩ := Outcome.exists_of_check (x := KdTree.make (topologicalTag F32 3) (metricSE2Sq F32)
    f32Num poses5 5 (Ref.optsSliding F32 3) 10) (p := fun _ => true) (by decide +kernel)
  have e : ((2 : ℚ) ^ (-8 : ℤ)) ^ 2 = 2 ^ (-16 : ℤ) := by norm_num
  obtain ⟨dist, hd, h3, _⟩ := c71_se2 (B := 512) (U := 256) (c := 2 ^ (-8 : ℤ)) (L := 2 ^ 24) (by positivity)
    (ieee_exactUpTo 23 (-149) (k := -8) (by decide)) (by rw [e]; exact ieee_exactUpTo 23 (-149) (k := -16) (by decide)) (by norm_num) (by decide)
    (by decide) h1
    ⟨by decide +kernel, by
      have : ∀ i < 5, ∀ j, f32Num.low ≤ poses5 i j ∧ poses5 i j ≤ f32Num.big := by decide +kernel
      exact this, trivial, fun h => by simp [Ref.optsSliding] at h⟩ (by decide) (by decide)
    ![f256 300, f256 (-77), f256 5] (circleOk_of (by decide +kernel) (by decide +kernel))
    (onGrid_f256 (by decide +kernel) (by decide +kernel) (by decide +kernel) (by decide) (by decide) (by decide))
    (by
      intro i hi
      interval_cases i <;> exact onGrid_f256 (by decide +kernel) (by decide +kernel) (by decide +kernel)
        (by decide) (by decide) (by decide))
    (by decide +kernel)
  refine ⟨T, dist, h1, h3 _, ?_⟩
  rw [hd 1 (by decide)]
  decide +kernel

end Pico.Props
