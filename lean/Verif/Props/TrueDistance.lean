import Verif.Props.Grid

/-!
# C86: how far the answers of floating point searches are from the truth

C46 compares computed distances.  Here the answers are compared in exact arithmetic: the distances the points
really have.
-/

set_option linter.unusedSectionVars false

namespace Pico.Props

open Pico Spec

section
variable {K : Type} [Field K] [LinearOrder K] [IsStrictOrderedRing K] {R : Rounding K} {d : Nat} {u : K}

/-- A rounded sum of non-negative terms is not much larger than the exact sum. -/
theorem loopSum_le (h : R.Error u) (hu0 : 0 ≤ u) (f : Fin d → R.F) (hf : ∀ j, 0 ≤ f j) :
    (loopSum f).1 ≤ (1 + u) ^ d * ∑ j, (f j).1 := by
  have key : ∀ (l : List (Fin d)) (acc : R.F), 0 ≤ acc.1 →
      (l.foldl (fun acc j => acc + f j) acc).1 ≤
        (1 + u) ^ l.length * (acc.1 + (l.map fun j => (f j).1).sum) := by
    intro l
    induction l with
    | nil => intro acc _; simp
    | cons a l ih =>
      intro acc hacc
      rw [List.foldl_cons]
      have ha : 0 ≤ (f a).1 := hf a
      have h0 : 0 ≤ acc.1 + (f a).1 := by linarith
      have h1 : (acc + f a).1 ≤ (1 + u) * (acc.1 + (f a).1) := h.le hu0 le_rfl h0
      have hnn : 0 ≤ (acc + f a).1 := by
        rw [R.val_add]
        have := R.mono _ _ h0
        rwa [R.rd_zero] at this
      refine (ih (acc + f a) hnn).trans ?_
      have hs : 0 ≤ (l.map fun j => (f j).1).sum := by
        apply List.sum_nonneg
        intro x hx
        obtain ⟨j, _, rfl⟩ := List.mem_map.1 hx
        exact hf j
      rw [List.length_cons, pow_succ, mul_assoc]
      refine mul_le_mul_of_nonneg_left ?_ (pow_nonneg (by linarith) _)
      rw [List.map_cons, List.sum_cons, ← add_assoc, mul_add]
      refine add_le_add h1 ?_
      have : u * (l.map fun j => (f j).1).sum ≥ 0 := mul_nonneg hu0 hs
      linarith
  have := key (List.finRange d) 0 le_rfl
  rw [List.length_finRange] at this
  rw [← List.sum_ofFn, List.ofFn_eq_map]
  unfold loopSum
  rw [R.val_zero, zero_add] at this
  exact this

/-- A difference has a small relative error. -/
theorem sub_error (h : R.Error u) (a b : R.F) :
    (1 - u) * |a.1 - b.1| ≤ |(a - b).1| ∧ |(a - b).1| ≤ (1 + u) * |a.1 - b.1| := by
  have h1 : |(a - b).1 - (a.1 - b.1)| ≤ u * |a.1 - b.1| := by
    have := h a.1 (-b.1) a.2 (by rw [R.odd, b.2])
    rw [R.val_sub]
    simpa [sub_eq_add_neg] using this
  have h2 : |(a - b).1| - |a.1 - b.1| ≤ |(a - b).1 - (a.1 - b.1)| := abs_sub_abs_le_abs_sub _ _
  have h3 : |a.1 - b.1| - |(a - b).1| ≤ |(a - b).1 - (a.1 - b.1)| := by
    rw [abs_sub_comm (a - b).1]; exact abs_sub_abs_le_abs_sub _ _
  constructor <;> linarith

/-- The square of the number has a small relative error (it does not underflow). -/
def _root_.Pico.Rounding.SquareError (R : Rounding K) (u : K) (z : K) : Prop := |R.rd (z * z) - z * z| ≤ u * (z * z)

variable {M : Metric R.F d} {N : Num R.F} {pts : Nat → Pt R.F d} {n : Nat} {o : BuildOpts R.F d} {fuel : Nat}
  {T : KdTree R.F d (Branch1 R.F d)} {q : Pt R.F d} {tru : Nat → K} {lo hi : K}

theorem accurate_sum (h : R.Error u) (hu0 : 0 ≤ u) (hu1 : u ≤ 1) (f : Fin d → R.F) (g : Fin d → K) (m : Nat)
    (hf0 : ∀ j, 0 ≤ f j) (hf : ∀ j, (1 - u) ^ m * g j ≤ (f j).1 ∧ (f j).1 ≤ (1 + u) ^ m * g j) :
    (1 - u) ^ (d + m) * ∑ j, g j ≤ (loopSum f).1 ∧ (loopSum f).1 ≤ (1 + u) ^ (d + m) * ∑ j, g j := by
  constructor
  · refine le_trans ?_ (loopSum_ge h hu0 hu1 f hf0)
    rw [pow_add, mul_assoc, Finset.mul_sum]
    exact mul_le_mul_of_nonneg_left (Finset.sum_le_sum fun j _ => (hf j).1) (pow_nonneg (by linarith) _)
  · refine (loopSum_le h hu0 f hf0).trans ?_
    rw [pow_add, mul_assoc, Finset.mul_sum (a := (1 + u) ^ m)]
    exact mul_le_mul_of_nonneg_left (Finset.sum_le_sum fun j _ => (hf j).2) (pow_nonneg (by linarith) _)

theorem accurate_l1 (h : R.Error u) (hu0 : 0 ≤ u) (hu1 : u ≤ 1) (x y : Pt R.F d) :
    (1 - u) ^ (d + 1) * l1 (R.exactPt x) (R.exactPt y) ≤ ((metricL1 R.F d).dist x y).1 ∧
      ((metricL1 R.F d).dist x y).1 ≤ (1 + u) ^ (d + 1) * l1 (R.exactPt x) (R.exactPt y) := by
  refine accurate_sum h hu0 hu1 _ (fun j => |(x j).1 - (y j).1|) 1 (fun j => ?_) (fun j => ?_)
  · exact (axis_l1 (d := 1) R.laws).nonneg _
  · rw [pow_one, pow_one]
    unfold r1Distance
    rw [R.sabs_val]
    exact sub_error h _ _

theorem accurate_l2 (h : R.Error u) (hu0 : 0 ≤ u) (hu1 : u ≤ 1) (x y : Pt R.F d)
    (hsq : ∀ j, R.SquareError u (x j - y j).1) :
    (1 - u) ^ (d + 3) * l2Sq (R.exactPt x) (R.exactPt y) ≤ ((metricL2Sq R.F d).dist x y).1 ∧
      ((metricL2Sq R.F d).dist x y).1 ≤ (1 + u) ^ (d + 3) * l2Sq (R.exactPt x) (R.exactPt y) := by
  refine accurate_sum h hu0 hu1 _ (fun j => ((x j).1 - (y j).1) ^ 2) 3 (fun j => ?_) (fun j => ?_)
  · exact (axis_l2Sq (d := 1) R.laws R.squareLaws).nonneg _
  · obtain ⟨a, b⟩ := sub_error h (x j) (y j)
    have c := abs_le.1 (hsq j)
    have hv : (squaredR1Distance (x j) (y j)).1 = R.rd ((x j - y j).1 * (x j - y j).1) := rfl
    rw [hv]
    set z := (x j - y j).1
    set t := (x j).1 - (y j).1
    have ez : z * z = |z| ^ 2 := by rw [sq_abs]; ring
    have et : t ^ 2 = |t| ^ 2 := (sq_abs t).symm
    have h1 : ((1 - u) * |t|) ^ 2 ≤ |z| ^ 2 :=
      pow_le_pow_left₀ (mul_nonneg (by linarith) (abs_nonneg t)) a 2
    have h2 : |z| ^ 2 ≤ ((1 + u) * |t|) ^ 2 := pow_le_pow_left₀ (abs_nonneg z) b 2
    rw [et]
    constructor
    · have : (1 - u) * ((1 - u) * |t|) ^ 2 ≤ (1 - u) * |z| ^ 2 := mul_le_mul_of_nonneg_left h1 (by linarith)
      calc (1 - u) ^ 3 * |t| ^ 2 = (1 - u) * ((1 - u) * |t|) ^ 2 := by ring
        _ ≤ (1 - u) * |z| ^ 2 := this
        _ ≤ R.rd (z * z) := by rw [← ez]; linarith [c.1]
    · have : (1 + u) * |z| ^ 2 ≤ (1 + u) * ((1 + u) * |t|) ^ 2 := mul_le_mul_of_nonneg_left h2 (by linarith)
      calc R.rd (z * z) ≤ (1 + u) * |z| ^ 2 := by rw [← ez]; linarith [c.2]
        _ ≤ (1 + u) * ((1 + u) * |t|) ^ 2 := this
        _ = (1 + u) ^ 3 * |t| ^ 2 := by ring

/-- Answers of all three searches up to `lo` and `hi` in terms of the distances `tru`. -/
structure TrueUpTo (T : KdTree R.F d (Branch1 R.F d)) (q : Pt R.F d) (n : Nat) (tru : Nat → K)
    (lo hi a b : K) (big : K) : Prop where
  /-- The nearest neighbor. -/
  nn : (∀ i < n, hi * tru i < a * big) → ∀ prior, (T.searchNn q prior).index < n ∧
    ∀ j < n, lo * tru (T.searchNn q prior).index ≤ hi * tru j
  /-- The `k` nearest neighbors are different points, as many as there can be, and none of them is farther than a
  point that is missing. -/
  knn : (∀ i < n, hi * tru i < a * big) → ∀ k prior, 0 < k → ∃ out, T.searchKnn q k prior = .ok out ∧
    out.length = min k n ∧ (out.map Neighbor.index).Nodup ∧ (∀ x ∈ out, x.index < n) ∧
    ∀ x ∈ out, ∀ j < n, j ∉ out.map Neighbor.index → lo * tru x.index ≤ hi * tru j
  /-- Radius search. -/
  radius : ∀ sorter r prior sort,
    (∀ x ∈ T.searchRadius sorter q r prior sort, x.index < n ∧ b * tru x.index < r.1) ∧
    ∀ i < n, hi * tru i < a * r.1 → ∃ x ∈ T.searchRadius sorter q r prior sort, x.index = i

theorem trueUpTo (hu : R.Error u) (hu0 : 0 ≤ u) (hu1 : u ≤ 1) (hM : AxisMetric M)
    (h : KdTree.make (euclideanTag R.F d) M N pts n o fuel = .ok T) (hR : Representable N pts n o)
    (hn : 0 < n) (q : Pt R.F d) (m : Nat)
    (hacc : ∀ i < n, (1 - u) ^ (d + m) * tru i ≤ (M.dist q (pts i)).1 ∧
      (M.dist q (pts i)).1 ≤ (1 + u) ^ (d + m) * tru i) :
    TrueUpTo T q n tru ((1 - u) ^ (2 * d + m)) ((1 + u) ^ (2 * Spec.height T.data.root + d + m)) ((1 - u) ^ d)
      ((1 - u) ^ (d + m)) N.big.1 := by
  have hl : ∀ k, 0 ≤ (1 - u) ^ k := fun k => pow_nonneg (by linarith) _
  have hh : ∀ k, 0 ≤ (1 + u) ^ k := fun k => pow_nonneg (by linarith) _
  have e1 : (1 - u) ^ (2 * d + m) = (1 - u) ^ d * (1 - u) ^ (d + m) := by rw [← pow_add]; congr 1; omega
  have e2 : (1 + u) ^ (2 * Spec.height T.data.root + d + m) =
      (1 + u) ^ (2 * Spec.height T.data.root) * (1 + u) ^ (d + m) := by rw [← pow_add]; congr 1; omega
  have up : ∀ i < n, (1 + u) ^ (2 * Spec.height T.data.root) * (M.dist q (pts i)).1 ≤
      (1 + u) ^ (2 * Spec.height T.data.root + d + m) * tru i := by
    intro i hi
    rw [e2, mul_assoc]
    exact mul_le_mul_of_nonneg_left (hacc i hi).2 (hh _)
  have down : ∀ i < n, (1 - u) ^ (2 * d + m) * tru i ≤ (1 - u) ^ d * (M.dist q (pts i)).1 := by
    intro i hi
    rw [e1, mul_assoc]
    exact mul_le_mul_of_nonneg_left (hacc i hi).1 (hl _)
  refine ⟨?_, ?_, ?_⟩
  · intro hb prior
    obtain ⟨i, hi, e, hle⟩ := c46_nn_partial hu hu0 hu1 hM h hR hn q
      (fun i hi => lt_of_le_of_lt (up i hi) (hb i hi)) prior
    rw [e]
    exact ⟨hi, fun j hj => (down i hi).trans ((hle j hj).trans (up j hj))⟩
  · intro hb k prior hk
    obtain ⟨out, rest, e, hlen, _, hp, hle⟩ := c46_knn_partial hu hu0 hu1 hM h hR hn q
      (fun i hi => lt_of_le_of_lt (up i hi) (hb i hi)) k hk prior
    have hpi := hp.map Neighbor.index
    rw [List.map_append, List.map_map] at hpi
    have hid : (Neighbor.index ∘ fun i => (⟨i, M.dist q (pts i)⟩ : Neighbor R.F)) = id := rfl
    rw [hid, List.map_id] at hpi
    have hval : ∀ x ∈ out ++ rest, x.index < n ∧ x.distance = M.dist q (pts x.index) := by
      intro x hx
      obtain ⟨i, hi, rfl⟩ := List.mem_map.1 (hp.subset hx)
      exact ⟨List.mem_range.1 hi, rfl⟩
    refine ⟨out, e, hlen, ?_, fun x hx => (hval x (List.mem_append_left _ hx)).1, ?_⟩
    · exact (List.nodup_append.1 (hpi.nodup_iff.2 List.nodup_range)).1
    · intro x hx j hj hno
      obtain ⟨h1, h2⟩ := hval x (List.mem_append_left _ hx)
      have hjr : j ∈ rest.map Neighbor.index := by
        have := hpi.symm.subset (List.mem_range.2 hj)
        exact (List.mem_append.1 this).resolve_left hno
      obtain ⟨y, hy, rfl⟩ := List.mem_map.1 hjr
      obtain ⟨h3, h4⟩ := hval y (List.mem_append_right _ hy)
      have := hle x hx y hy
      rw [h2, h4] at this
      exact (down _ h1).trans (this.trans (up _ h3))
  · intro sorter r prior sort
    obtain ⟨h1, h2⟩ := c46_radius_partial hu hu0 hu1 hM h hR hn q sorter r prior sort
    refine ⟨?_, ?_⟩
    · intro x hx
      obtain ⟨a1, a2, a3⟩ := h1 x hx
      refine ⟨a1, lt_of_le_of_lt (hacc _ a1).1 ?_⟩
      rw [← a2]
      exact a3
    · intro i hi hlt
      have a1 := lt_of_le_of_lt (up i hi) hlt
      have hd0 := dist_nonneg hu hu0 hu1 hM q pts i
      have hone : 1 ≤ (1 + u) ^ (2 * Spec.height T.data.root) := one_le_pow₀ (by linarith)
      have hr0 : 0 < r.1 := by
        by_contra hc
        push Not at hc
        have := mul_nonpos_of_nonneg_of_nonpos (hl d) hc
        have := mul_nonneg (le_trans zero_le_one hone) hd0
        linarith
      have hlr : (1 - u) ^ d * r.1 ≤ r.1 :=
        mul_le_of_le_one_left hr0.le (pow_le_one₀ (by linarith) (by linarith))
      refine ⟨_, h2 i hi ?_ a1, rfl⟩
      rw [R.lt_iff]
      have := le_mul_of_one_le_left hd0 hone
      linarith

/-- C86 for `metric_l1`. -/
theorem c86_l1 (hu : R.Error u) (hu0 : 0 ≤ u) (hu1 : u ≤ 1)
    (h : KdTree.make (euclideanTag R.F d) (metricL1 R.F d) N pts n o fuel = .ok T) (hR : Representable N pts n o)
    (hn : 0 < n) (q : Pt R.F d) :
    TrueUpTo T q n (fun i => l1 (R.exactPt q) (R.exactPt (pts i))) ((1 - u) ^ (2 * d + 1))
      ((1 + u) ^ (2 * Spec.height T.data.root + d + 1)) ((1 - u) ^ d) ((1 - u) ^ (d + 1)) N.big.1 :=
  trueUpTo hu hu0 hu1 (axis_l1 R.laws) h hR hn q 1
    (fun i _ => accurate_l1 hu hu0 hu1 q (pts i))

/-- C86 for `metric_l2_squared`, if no square of a coordinate difference underflows. -/
theorem c86_l2 (hu : R.Error u) (hu0 : 0 ≤ u) (hu1 : u ≤ 1)
    (h : KdTree.make (euclideanTag R.F d) (metricL2Sq R.F d) N pts n o fuel = .ok T)
    (hR : Representable N pts n o) (hn : 0 < n) (q : Pt R.F d)
    (hsq : ∀ i < n, ∀ j, R.SquareError u (q j - pts i j).1) :
    TrueUpTo T q n (fun i => l2Sq (R.exactPt q) (R.exactPt (pts i))) ((1 - u) ^ (2 * d + 3))
      ((1 + u) ^ (2 * Spec.height T.data.root + d + 3)) ((1 - u) ^ d) ((1 - u) ^ (d + 3)) N.big.1 :=
  trueUpTo hu hu0 hu1 (axis_l2Sq R.laws R.squareLaws) h hR hn q 3
    (fun i hi => accurate_l2 hu hu0 hu1 q (pts i) (hsq i hi))

end

/-- Without underflow: the square is zero or in the normal range. -/
theorem ieee_squareError {p : Nat} {e : ℤ} {z : ℚ} (h : z = 0 ∨ (2 : ℚ) ^ (e + p) ≤ z * z) :
    (ieee p e).SquareError (1 / 2 ^ (p + 1)) z := by
  change |roundTiny p e (z * z) - z * z| ≤ _
  rcases h with rfl | h
  · have : roundTiny p e (0 * 0) = 0 := by rw [mul_zero]; exact (ieee p e).rd_zero
    rw [this]
    simp
  · have h0 : 0 < z * z := lt_of_lt_of_le (by positivity) h
    have := roundBits_relative p (z * z)
    rw [roundBits_of_pos h0, abs_of_pos h0] at this
    rw [roundTiny_of_nonneg h0.le]
    unfold roundTinyPos
    rw [if_pos h]
    exact this

/-- C86 for `float` and `double`: the relative error per operation is `2^-(p+1)`. -/
theorem c86_ieee {p d : Nat} {e : ℤ} {N : Num (ieee p e).F} {pts : Nat → Pt (ieee p e).F d} {n : Nat}
    {o : BuildOpts (ieee p e).F d} {fuel : Nat} {T : KdTree (ieee p e).F d (Branch1 (ieee p e).F d)}
    (h : KdTree.make (euclideanTag (ieee p e).F d) (metricL2Sq (ieee p e).F d) N pts n o fuel = .ok T)
    (hR : Representable N pts n o) (hn : 0 < n) (q : Pt (ieee p e).F d)
    (hsq : ∀ i < n, ∀ j, (q j - pts i j).1 = 0 ∨ (2 : ℚ) ^ (e + p) ≤ (q j - pts i j).1 * (q j - pts i j).1) :
    TrueUpTo T q n (fun i => l2Sq ((ieee p e).exactPt q) ((ieee p e).exactPt (pts i)))
      ((1 - 1 / 2 ^ (p + 1)) ^ (2 * d + 3)) ((1 + 1 / 2 ^ (p + 1)) ^ (2 * Spec.height T.data.root + d + 3))
      ((1 - 1 / 2 ^ (p + 1)) ^ d) ((1 - 1 / 2 ^ (p + 1)) ^ (d + 3)) N.big.1 := by
  have h1 : (1 : ℚ) / 2 ^ (p + 1) ≤ 1 := by
    rw [div_le_one (by positivity)]
    exact one_le_pow₀ (by norm_num)
  exact c86_l2 (ieee_relative p e) (by positivity) h1 h hR hn q fun i hi j => ieee_squareError (hsq i hi j)

/-- The five points of `c46_false`, where the search is wrong: the true squared distance of the point found
exceeds the smallest one by a factor of at most `(1 + 2^-24)^11 / (1 - 2^-24)^7`. -/
example : ∃ T, KdTree.make (euclideanTag F32 2) (metricL2Sq F32 2) f32Num nearCircle 5
    (Ref.optsSliding F32 2) 10 = .ok T ∧ ∀ j < 5, (1 - 1 / 2 ^ 24) ^ 7 *
      l2Sq ((ieee 23 (-149)).exactPt ![0, 0]) ((ieee 23 (-149)).exactPt (nearCircle (T.searchNn ![0, 0] ⟨0, 0⟩).index)) ≤
      (1 + 1 / 2 ^ 24) ^ 11 * l2Sq ((ieee 23 (-149)).exactPt ![0, 0]) ((ieee 23 (-149)).exactPt (nearCircle j)) := by
  obtain ⟨T, h1, h2⟩ := Outcome.exists_of_check (x := KdTree.make (euclideanTag F32 2) (metricL2Sq F32 2)
    f32Num nearCircle 5 (Ref.optsSliding F32 2) 10)
    (p := fun T => decide (Spec.height T.data.root = 3)) (by decide +kernel)
  have h2 := of_decide_eq_true h2
  have h3 := (c86_ieee (p := 23) h1 nearCircle_representable (by decide) ![0, 0] (by decide +kernel)).nn
  rw [h2] at h3
  exact ⟨T, h1, (h3 (by decide +kernel) ⟨0, 0⟩).2⟩

end Pico.Props
