import Verif.Props.TopoRounding

/-!
# C85: SE(2) and tori in floating point arithmetic

On a grid the searches are exact (C71).  For arbitrary coordinates the incremental distance drifts, by at most
the accumulated relative error of the additions.
-/

set_option linter.unusedSectionVars false

namespace Pico.Props

open Pico Spec

section
variable {K : Type} [Field K] [LinearOrder K] [IsStrictOrderedRing K] {R : Rounding K} {d : Nat} {u : K}
  {M : Metric R.F d} {N : Num R.F} {pts : Nat → Pt R.F d} {n : Nat} {o : BuildOpts R.F d} {fuel : Nat}
  {T : KdTree R.F d (Branch2 R.F d)}

/-- Sums of squares over lines and circles. -/
structure SquareSum (M : Metric R.F d) : Prop where
  one : ∀ x, M.one x = squared x
  dist : ∀ x y, M.dist x y = loopSum fun j => M.one (computedAxis (M.space j) (x j) (y j))

theorem squareSum_se2 : SquareSum (metricSE2Sq R.F) where
  one _ := rfl
  dist x y := by
    have e : (List.finRange 3) = [0, 1, 2] := by decide
    simp only [loopSum, e, List.foldl_cons, List.foldl_nil]
    change ((0 + squared (x 0 - y 0)) + squared (x 1 - y 1)) + squared (s1Distance (x 2) (y 2)) =
      ((0 + squared (sabs (x 0 - y 0))) + squared (sabs (x 1 - y 1))) + squared (s1Distance (x 2) (y 2))
    rw [squared_sabs, squared_sabs]

theorem squareSum_t2 : SquareSum (metricT2Sq R.F d) where
  one _ := rfl
  dist _ _ := rfl

theorem SquareSum.topo (hM : SquareSum M) : TopoMetric M :=
  ⟨by rw [hM.one]; exact R.squareLaws.zero_mul_zero, fun x y h0 hxy => by
    rw [hM.one, hM.one]; exact R.squareLaws.mul_mono x y h0 hxy⟩

theorem SquareSum.nonneg (hM : SquareSum M) (x : R.F) : 0 ≤ M.one x := by
  rw [hM.one]
  change 0 ≤ (x * x).1
  rw [R.val_mul]
  have := R.mono _ _ (mul_self_nonneg x.1)
  rwa [R.rd_zero] at this

theorem SquareSum.dist_nonneg (hM : SquareSum M) (hu : R.Error u) (hu0 : 0 ≤ u) (hu1 : u ≤ 1) (q : Pt R.F d)
    (pts : Nat → Pt R.F d) (i : Nat) : 0 ≤ (M.dist q (pts i)).1 := by
  rw [hM.dist]
  refine le_trans ?_ (loopSum_ge hu hu0 hu1 _ fun j => hM.nonneg _)
  exact mul_nonneg (pow_nonneg (by linarith) _) (Finset.sum_nonneg fun j _ => hM.nonneg _)

theorem nearlyExact_topo (hu : R.Error u) (hu0 : 0 ≤ u) (hu1 : u ≤ 1) (hM : SquareSum M)
    (h : KdTree.make (topologicalTag R.F d) M N pts n o fuel = .ok T) (hR : Representable N pts n o)
    (hn : 0 < n) (q : Pt R.F d) (hc : CircleOk M.space pts n o q) :
    NearlyExact T q (fun i => M.dist q (pts i)) n ((1 - u) ^ d) ((1 + u) ^ (2 * Spec.height T.data.root)) := by
  have hg := guard_make (fun j x y => M.one (computedAxis (M.space j) x y))
    (fun dim mn mx v p hs hp => R.circleLaws.boxDistance_le hM.topo dim mn mx v p hs hp) h hR hn q hc
  refine nearlyExact_of_guard hu hu0 hu1 h hR hn q _ hg (fun j i => hM.nonneg _) (fun data => ?_)
    (fun i _ => hM.dist _ _)
  simp only [topologicalTag, pickTopological]
  split_ifs <;> exact hM.nonneg _

/-- C85, nearest neighbor: with a relative error of at most `u` per addition and a tree of height `h` the point
found has the smallest computed distance up to a factor of `(1 + u)^(2h) / (1 - u)^d`. -/
theorem c85_nn (hu : R.Error u) (hu0 : 0 ≤ u) (hu1 : u ≤ 1) (hM : SquareSum M)
    (h : KdTree.make (topologicalTag R.F d) M N pts n o fuel = .ok T) (hR : Representable N pts n o)
    (hn : 0 < n) (q : Pt R.F d) (hc : CircleOk M.space pts n o q)
    (hbig : ∀ i < n, (1 + u) ^ (2 * Spec.height T.data.root) * (M.dist q (pts i)).1 < (1 - u) ^ d * N.big.1)
    (nn : Neighbor R.F) :
    ∃ i < n, T.searchNn q nn = ⟨i, M.dist q (pts i)⟩ ∧
      ∀ j < n, (1 - u) ^ d * (M.dist q (pts i)).1 ≤
        (1 + u) ^ (2 * Spec.height T.data.root) * (M.dist q (pts j)).1 :=
  nn_of_nearly (nearlyExact_topo hu hu0 hu1 hM h hR hn q hc) (KdTree.make_ok h).2.2.1
    (pow_nonneg (by linarith) _) (pow_le_one₀ (by linarith) (by linarith)) (one_le_pow₀ (by linarith))
    (hM.dist_nonneg hu hu0 hu1 q pts) hn hbig nn

/-- C85, k nearest neighbors. -/
theorem c85_knn (hu : R.Error u) (hu0 : 0 ≤ u) (hu1 : u ≤ 1) (hM : SquareSum M)
    (h : KdTree.make (topologicalTag R.F d) M N pts n o fuel = .ok T) (hR : Representable N pts n o)
    (hn : 0 < n) (q : Pt R.F d) (hc : CircleOk M.space pts n o q)
    (hbig : ∀ i < n, (1 + u) ^ (2 * Spec.height T.data.root) * (M.dist q (pts i)).1 < (1 - u) ^ d * N.big.1)
    (k : Nat) (hk0 : 0 < k) (prior : List (Neighbor R.F)) :
    ∃ out rest, T.searchKnn q k prior = .ok out ∧ out.length = min k n ∧
      (out.Pairwise fun a b => a.distance ≤ b.distance) ∧
      (out ++ rest).Perm ((List.range n).map fun i => ⟨i, M.dist q (pts i)⟩) ∧
      ∀ a ∈ out, ∀ b ∈ rest, (1 - u) ^ d * a.distance.1 ≤
        (1 + u) ^ (2 * Spec.height T.data.root) * b.distance.1 :=
  knn_of_nearly (nearlyExact_topo hu hu0 hu1 hM h hR hn q hc) (KdTree.make_ok h).2.2.1
    (KdTree.make_ok h).2.2.2.2.1
    (pow_nonneg (by linarith) _) (pow_le_one₀ (by linarith) (by linarith)) (one_le_pow₀ (by linarith))
    (hM.dist_nonneg hu hu0 hu1 q pts) hn hbig k hk0 prior

/-- C85, radius search: everything returned is genuine and closer than the radius, and every point is returned
whose computed distance is smaller than the radius by that factor. -/
theorem c85_radius (hu : R.Error u) (hu0 : 0 ≤ u) (hu1 : u ≤ 1) (hM : SquareSum M)
    (h : KdTree.make (topologicalTag R.F d) M N pts n o fuel = .ok T) (hR : Representable N pts n o)
    (hn : 0 < n) (q : Pt R.F d) (hc : CircleOk M.space pts n o q) (sorter : StdSort (Neighbor R.F)) (r : R.F)
    (prior : List (Neighbor R.F)) (sort : Bool) :
    (∀ a ∈ T.searchRadius sorter q r prior sort, a.index < n ∧ a.distance = M.dist q (pts a.index) ∧
      a.distance < r) ∧
    ∀ i < n, M.dist q (pts i) < r →
      (1 + u) ^ (2 * Spec.height T.data.root) * (M.dist q (pts i)).1 < (1 - u) ^ d * r.1 →
      ⟨i, M.dist q (pts i)⟩ ∈ T.searchRadius sorter q r prior sort :=
  radius_of_nearly (nearlyExact_topo hu hu0 hu1 hM h hR hn q hc) sorter r prior sort

end

/-- C85 for `float`- and `double`-like numbers and the metrics of the library and its example: the relative
error per addition is `2^-(p+1)`. -/
theorem c85_ieee {p : Nat} {e : ℤ} {N : Num (ieee p e).F} {pts : Nat → Pt (ieee p e).F 3} {n : Nat}
    {o : BuildOpts (ieee p e).F 3} {fuel : Nat} {T : KdTree (ieee p e).F 3 (Branch2 (ieee p e).F 3)}
    {M : Metric (ieee p e).F 3} (hM : M = metricSE2Sq (ieee p e).F ∨ M = metricT2Sq (ieee p e).F 3)
    (h : KdTree.make (topologicalTag (ieee p e).F 3) M N pts n o fuel = .ok T)
    (hR : Representable N pts n o) (hn : 0 < n) (q : Pt (ieee p e).F 3) (hc : CircleOk M.space pts n o q)
    (hbig : ∀ i < n, (1 + 1 / 2 ^ (p + 1)) ^ (2 * Spec.height T.data.root) * (M.dist q (pts i)).1 <
      (1 - 1 / 2 ^ (p + 1)) ^ 3 * N.big.1) (nn : Neighbor (ieee p e).F) :
    ∃ i < n, T.searchNn q nn = ⟨i, M.dist q (pts i)⟩ ∧
      ∀ j < n, (1 - 1 / 2 ^ (p + 1)) ^ 3 * (M.dist q (pts i)).1 ≤
        (1 + 1 / 2 ^ (p + 1)) ^ (2 * Spec.height T.data.root) * (M.dist q (pts j)).1 := by
  have hS : SquareSum M := by
    rcases hM with rfl | rfl
    · exact squareSum_se2
    · exact squareSum_t2
  have h1 : (1 : ℚ) / 2 ^ (p + 1) ≤ 1 := by
    rw [div_le_one (by positivity)]
    exact one_le_pow₀ (by norm_num)
  exact c85_nn (ieee_relative p e) (by positivity) h1 hS h hR hn q hc hbig nn

/-- Four poses whose coordinates are no binary fractions. -/
def poses4 : Nat → Pt F32 3
  | 0 => ![(ieee 23 (-149)).ofK (1 / 3), (ieee 23 (-149)).ofK (1 / 7), (ieee 23 (-149)).ofK (1 / 10)]
  | 1 => ![(ieee 23 (-149)).ofK (17 / 3), (ieee 23 (-149)).ofK (-2 / 7), (ieee 23 (-149)).ofK (97 / 100)]
  | 2 => ![(ieee 23 (-149)).ofK (17 / 3), (ieee 23 (-149)).ofK (100 / 7), (ieee 23 (-149)).ofK (2 / 3)]
  | _ => ![(ieee 23 (-149)).ofK (-1 / 3), (ieee 23 (-149)).ofK (200 / 7), (ieee 23 (-149)).ofK (1 / 3)]

/-- A tree of height two. -/
example : ∃ T i, KdTree.make (topologicalTag F32 3) (metricSE2Sq F32) f32Num poses4 4 (Ref.optsSliding F32 3) 10
      = .ok T ∧ T.searchNn ![(ieee 23 (-149)).ofK 5, 0, 0] ⟨0, 0⟩ =
        ⟨i, (metricSE2Sq F32).dist ![(ieee 23 (-149)).ofK 5, 0, 0] (poses4 i)⟩ ∧
      ∀ j < 4, (1 - 1 / 2 ^ 24) ^ 3 * ((metricSE2Sq F32).dist ![(ieee 23 (-149)).ofK 5, 0, 0] (poses4 i)).1 ≤
        (1 + 1 / 2 ^ 24) ^ 4 * ((metricSE2Sq F32).dist ![(ieee 23 (-149)).ofK 5, 0, 0] (poses4 j)).1 := by
  obtain ⟨T, h1, h2⟩ := Outcome.exists_of_check (x := KdTree.make (topologicalTag F32 3) (metricSE2Sq F32)
    f32Num poses4 4 (Ref.optsSliding F32 3) 10) (p := fun T => decide (Spec.height T.data.root = 2))
    (by decide +kernel)
  have h2 := of_decide_eq_true h2
  obtain ⟨i, _, h3, h4⟩ := c85_ieee (p := 23) (.inl rfl) h1
    ⟨by decide +kernel, by
      have : ∀ i < 4, ∀ j, f32Num.low ≤ poses4 i j ∧ poses4 i j ≤ f32Num.big := by decide +kernel
      exact this, trivial, fun h => by simp [Ref.optsSliding] at h⟩ (by decide)
    ![(ieee 23 (-149)).ofK 5, 0, 0] (circleOk_of (by decide +kernel) (by decide +kernel))
    (by rw [h2]; decide +kernel) ⟨0, 0⟩
  rw [h2] at h4
  exact ⟨T, i, h1, h3, h4⟩

end Pico.Props
