import Verif.Proof.Merge
import Verif.Props.Builder
import Verif.Props.TopoApprox
import Mathlib.Analysis.Normed.Lp.PiLp
import Mathlib.Analysis.Normed.Lp.ProdLp
import Mathlib.Analysis.Normed.Group.AddCircle

/-!
# C137: radii and ratios given as lengths

The searches compare values of the metric, which for most metrics are powers of lengths. The documentation
(kd_tree.hpp:134-153, 246-252; examples/kd_tree/kd_tree_search.cpp:25-33, examples/python/kd_tree.py:58-59) applies the
metric to a length or a ratio first. Here the answers are stated in lengths; over the real numbers these are the
distances of Mathlib: `PiLp`, `EuclideanSpace`, `UnitAddCircle` and products of them.
-/

namespace Pico.Props

open Pico Spec

section Lengths
variable {α : Type} [Field α] [LinearOrder α] [IsStrictOrderedRing α] {d : Nat} {β : Type}

/-- Searches from `q` when `ℓ i` is the length from `q` to the point `i`. A radius `r` is given as `metric(r)`, an error
of `p` (0.2 for 20 percent) as the ratio `metric(1 + p)`. -/
structure InLengths (T : KdTree α d β) (q : Pt α d) (n : Nat) (ℓ : Nat → α) : Prop where
  /-- A nearest neighbor; its distance is `metric(length)`. -/
  nn : ∀ nn, (T.searchNn q nn).index < n ∧ (T.searchNn q nn).distance = T.metric.one (ℓ (T.searchNn q nn).index) ∧
    ∀ j < n, ℓ (T.searchNn q nn).index ≤ ℓ j
  /-- The `k` smallest lengths in order. -/
  knn : ∀ k prior, 0 < k → ∃ out, T.searchKnn q k prior = .ok out ∧ (∀ x ∈ out, x.index < n) ∧
    (out.map Neighbor.index).Nodup ∧ (∀ x ∈ out, x.distance = T.metric.one (ℓ x.index)) ∧
    out.map (fun x => ℓ x.index) = smallest n k ℓ
  /-- The points nearer than `|r|`. -/
  radius : ∀ sorter r prior sort,
    ((T.searchRadius sorter q (T.metric.one r) prior sort).map Neighbor.index).Perm
      ((List.range n).filter fun i => decide (ℓ i < |r|))
  /-- "The ann can not be further away than a factor of (1 + max_error_percentage) from the real nn". -/
  nnApprox : ∀ p nn, 0 ≤ p → (T.searchNnApprox q (T.metric.one (1 + p)) nn).index < n ∧
    (T.searchNnApprox q (T.metric.one (1 + p)) nn).distance =
      T.metric.one (ℓ (T.searchNnApprox q (T.metric.one (1 + p)) nn).index / (1 + p)) ∧
    ∀ j < n, ℓ (T.searchNnApprox q (T.metric.one (1 + p)) nn).index ≤ (1 + p) * ℓ j
  /-- The same position by position. -/
  knnApprox : ∀ p k prior, 0 ≤ p → 0 < k → ∃ out, T.searchKnnApprox q k (T.metric.one (1 + p)) prior = .ok out ∧
    out.length = min k n ∧ (∀ x ∈ out, x.index < n) ∧ (out.map Neighbor.index).Nodup ∧
    (∀ x ∈ out, x.distance = T.metric.one (ℓ x.index / (1 + p))) ∧
    ∀ i (hi : i < out.length) (hi' : i < (smallest n k ℓ).length), ℓ out[i].index ≤ (1 + p) * (smallest n k ℓ)[i]
  /-- Only points nearer than `|r|`, among them all points nearer than `|r| / (1 + p)`. -/
  radiusApprox : ∀ sorter r p prior sort, 0 ≤ p →
    let out := T.searchRadiusApprox sorter q (T.metric.one r) (T.metric.one (1 + p)) prior sort
    (out.map Neighbor.index).Nodup ∧ (∀ x ∈ out, x.index < n ∧ x.distance = T.metric.one (ℓ x.index / (1 + p)) ∧
      ℓ x.index < |r|) ∧ ∀ i < n, ℓ i < |r| / (1 + p) → ∃ x ∈ out, x.index = i

variable {tag : SpaceTag α d β} {M : Metric α d} {N : Num α} {pts : Nat → Pt α d} {n : Nat} {o : BuildOpts α d}
  {fuel : Nat} {T : KdTree α d β} {q : Pt α d} {ℓ : Nat → α} {P : Nat}

theorem mergeSort_map_of_mono {f : α → α} {l : List α} (hf : ∀ x ∈ l, ∀ y ∈ l, x ≤ y → f x ≤ f y) :
    (l.map f).mergeSort (fun a b => decide (a ≤ b)) = (l.mergeSort (fun a b => decide (a ≤ b))).map f := by
  refine List.Perm.eq_of_pairwise (le := (· ≤ ·)) (fun a b _ _ h1 h2 => le_antisymm h1 h2) (mergeSort_sorted _) ?_
    ((List.mergeSort_perm _ _).trans ((List.mergeSort_perm l _).map f).symm)
  rw [List.pairwise_map]
  have hm : ∀ x ∈ l.mergeSort (fun a b => decide (a ≤ b)), x ∈ l := fun x hx => (List.mergeSort_perm _ _).subset hx
  exact (mergeSort_sorted l).imp_of_mem fun ha hb h => hf _ (hm _ ha) _ (hm _ hb) h

theorem lengths_of_exact (h : KdTree.make tag M N pts n o fuel = .ok T) (hn : 0 < n) (hE : ExactAt T q)
    (hP : P ≠ 0) (hM : ∀ x, M.one x = |x| ^ P) (hℓ : ∀ i < n, 0 ≤ ℓ i ∧ ℓ i ^ P = M.dist q (pts i))
    (hbig : ∀ i < n, M.dist q (pts i) < N.big) : InLengths T q n ℓ := by
  have hTM : T.metric = M := by obtain ⟨_, rfl, rfl, rfl, rfl, _⟩ := KdTree.make_ok h; rfl
  have hle : ∀ x y : α, 0 ≤ x → 0 ≤ y → (x ^ P ≤ y ^ P ↔ x ≤ y) := fun x y hx hy => pow_le_pow_iff_left₀ hx hy hP
  have hlt : ∀ x y : α, 0 ≤ x → 0 ≤ y → (x ^ P < y ^ P ↔ x < y) := fun x y hx hy => pow_lt_pow_iff_left₀ hx hy hP
  have hone : ∀ i < n, M.one (ℓ i) = M.dist q (pts i) := fun i hi => by
    rw [hM, abs_of_nonneg (hℓ i hi).1, (hℓ i hi).2]
  have hnn : ∀ i < n, 0 ≤ M.dist q (pts i) := fun i hi => (hℓ i hi).2 ▸ pow_nonneg (hℓ i hi).1 _
  have hratio : ∀ p : α, 0 ≤ p → 1 ≤ M.one (1 + p) := fun p hp => by
    rw [hM, abs_of_nonneg (by linarith)]
    exact one_le_pow₀ (by linarith)
  have hdiv : ∀ p : α, 0 ≤ p → ∀ i < n, ∀ x, x * M.one (1 + p) = M.dist q (pts i) → x = M.one (ℓ i / (1 + p)) := by
    intro p hp i hi x hx
    have h0 : (0 : α) < 1 + p := by linarith
    have h1 : (1 + p) ^ P ≠ 0 := (pow_pos h0 P).ne'
    rw [hM, abs_of_nonneg h0.le] at hx
    rw [hM, abs_of_nonneg (div_nonneg (hℓ i hi).1 h0.le), div_pow, (hℓ i hi).2, ← hx, mul_div_cancel_right₀ _ h1]
  have hmul : ∀ p : α, 0 ≤ p → ∀ i < n, ∀ j < n, M.dist q (pts i) ≤ M.one (1 + p) * M.dist q (pts j) →
      ℓ i ≤ (1 + p) * ℓ j := by
    intro p hp i hi j hj hx
    have h0 : (0 : α) < 1 + p := by linarith
    rw [hM, abs_of_nonneg h0.le, ← (hℓ i hi).2, ← (hℓ j hj).2, ← mul_pow,
      hle _ _ (hℓ i hi).1 (mul_nonneg h0.le (hℓ j hj).1)] at hx
    exact hx
  -- the smallest distances are those of the smallest lengths
  have hs : ∀ k, smallest n k (fun i => M.dist q (pts i)) = (smallest n k ℓ).map M.one := by
    intro k
    have e : (List.range n).map (fun i => M.dist q (pts i)) = ((List.range n).map ℓ).map M.one := by
      rw [List.map_map]
      exact List.map_congr_left fun i hi => (hone i (List.mem_range.1 hi)).symm
    have hm : ∀ x ∈ (List.range n).map ℓ, ∀ y ∈ (List.range n).map ℓ, x ≤ y → M.one x ≤ M.one y := by
      intro x hx y hy hxy
      rw [List.mem_map] at hx
      obtain ⟨i, hi, rfl⟩ := hx
      have h0 := (hℓ i (List.mem_range.1 hi)).1
      rw [hM, hM, abs_of_nonneg h0, abs_of_nonneg (h0.trans hxy)]
      exact pow_le_pow_left₀ h0 hxy P
    unfold smallest
    rw [e, mergeSort_map_of_mono hm, List.map_take]
  have hmem : ∀ k, ∀ x ∈ smallest n k ℓ, ∃ i < n, x = ℓ i := by
    intro k x hx
    have := (List.mergeSort_perm _ _).subset (List.mem_of_mem_take hx)
    rw [List.mem_map] at this
    obtain ⟨i, hi, rfl⟩ := this
    exact ⟨i, List.mem_range.1 hi, rfl⟩
  have hlen : ∀ (k : Nat) (f g : Nat → α), (smallest n k f).length = (smallest n k g).length := fun k f g => by
    rw [Spec.length_smallest, Spec.length_smallest]
  refine ⟨fun nn => ?_, fun k prior hk => ?_, fun sorter r prior sort => ?_, fun p nn hp => ?_, fun p k prior hp hk => ?_,
    fun sorter r p prior sort hp => ?_⟩
  · have h1 := nn_of_exact h hE hn rfl hbig nn
    refine ⟨h1.valid, ?_, fun j hj => ?_⟩
    · rw [hTM, hone _ h1.valid, h1.distance]
    · have := h1.nearest j hj
      rw [h1.distance] at this
      rwa [← (hℓ j hj).2, ← (hℓ _ h1.valid).2, hle _ _ (hℓ _ h1.valid).1 (hℓ j hj).1] at this
  · obtain ⟨out, h1, h2, h3⟩ := knn_of_exact h hE hn rfl hbig k hk prior
    obtain ⟨rest, h4, -⟩ := h2.rest
    have hval : ∀ x ∈ out, x.index < n ∧ x.distance = M.dist q (pts x.index) := by
      intro x hx
      have := h4.subset (List.mem_append_left _ hx)
      rw [Spec.all, List.mem_map] at this
      obtain ⟨i, hi, rfl⟩ := this
      exact ⟨List.mem_range.1 hi, rfl⟩
    have hnd : (out.map Neighbor.index).Nodup := by
      have := h4.map Neighbor.index
      rw [List.map_append, Spec.all, List.map_map] at this
      have e : (List.range n).map (Neighbor.index ∘ fun i => (⟨i, M.dist q (pts i)⟩ : Neighbor α)) = List.range n := by
        simp [Function.comp_def]
      rw [e] at this
      exact (List.nodup_append.1 (this.nodup_iff.2 List.nodup_range)).1
    refine ⟨out, h1, fun x hx => (hval x hx).1, hnd, fun x hx => ?_, ?_⟩
    · rw [hTM, hone _ (hval x hx).1, (hval x hx).2]
    · rw [hs] at h3
      have hl := congrArg List.length h3
      simp only [List.length_map] at hl
      refine List.ext_getElem (by simpa using hl) fun i hi hi' => ?_
      have h5 := List.getElem_of_eq h3 (i := i) (by simpa using hi)
      rw [List.getElem_map, List.getElem_map] at h5
      rw [List.getElem_map]
      have hi0 : i < out.length := by simpa using hi
      have h6 := hval out[i] (List.getElem_mem _)
      obtain ⟨j, hj, e⟩ := hmem k _ (List.getElem_mem hi')
      rw [e, hone j hj, h6.2, ← (hℓ _ h6.1).2, ← (hℓ j hj).2] at h5
      rw [e]
      exact le_antisymm ((hle _ _ (hℓ _ h6.1).1 (hℓ j hj).1).1 h5.le) ((hle _ _ (hℓ j hj).1 (hℓ _ h6.1).1).1 h5.ge)
  · have h1 := ((radius_of_exact h hE rfl sorter (T.metric.one r) prior sort).1).map Neighbor.index
    refine h1.trans ?_
    rw [Spec.all, List.filter_map, List.map_map]
    have e : (Neighbor.index ∘ fun i => (⟨i, M.dist q (pts i)⟩ : Neighbor α)) = id := rfl
    rw [e, List.map_id]
    refine List.Perm.of_eq (List.filter_congr fun i hi => ?_)
    have hi := List.mem_range.1 hi
    refine decide_eq_decide.2 ?_
    show M.dist q (pts i) < T.metric.one r ↔ ℓ i < |r|
    rw [hTM, hM, ← (hℓ i hi).2]
    exact hlt _ _ (hℓ i hi).1 (abs_nonneg _)
  · have he := hratio p hp
    obtain ⟨i, hi, h1, h2, h3, -⟩ := nnApprox_of_exact h hE hn rfl hnn (M.one (1 + p)) (by linarith)
      (fun i hi => ⟨hbig i hi, lt_of_le_of_lt (div_le_self (hnn i hi) he) (hbig i hi)⟩) nn
    rw [hTM, h1]
    exact ⟨hi, hdiv p hp i hi _ h2, fun j hj => hmul p hp i hi j hj (h3 he j hj)⟩
  · have he := hratio p hp
    obtain ⟨out, h1, h2⟩ := knnApprox_of_exact h hE hn rfl hnn (M.one (1 + p)) he hbig k hk prior
    rw [hTM]
    refine ⟨out, h1, h2.length, fun x hx => (h2.genuine x hx).1, h2.distinct,
      fun x hx => hdiv p hp _ (h2.genuine x hx).1 _ (h2.genuine x hx).2, fun i hi hi' => ?_⟩
    have h5 := h2.ratio i hi ((hlen k _ _).trans_gt hi')
    have h6 : (smallest n k fun i => M.dist q (pts i))[i]'((hlen k _ _).trans_gt hi') = M.one (smallest n k ℓ)[i] := by
      simp only [hs, List.getElem_map]
    obtain ⟨j, hj, e⟩ := hmem k _ (List.getElem_mem hi')
    rw [h6, e, hone j hj] at h5
    rw [e]
    exact hmul p hp _ (h2.genuine _ (List.getElem_mem hi)).1 j hj h5
  · have he := hratio p hp
    have h0 : (0 : α) < 1 + p := by linarith
    obtain ⟨h1, -⟩ := radiusApprox_of_exact h hE rfl hnn sorter (M.one r) (M.one (1 + p)) he prior sort
    simp only [hTM]
    refine ⟨h1.distinct, fun x hx => ?_, fun i hi hr => h1.complete i hi ?_⟩
    · obtain ⟨g1, g2, g3⟩ := h1.sound x hx
      refine ⟨g1, hdiv p hp _ g1 _ g2, ?_⟩
      rwa [hM, ← (hℓ _ g1).2, hlt _ _ (hℓ _ g1).1 (abs_nonneg _)] at g3
    · rw [hM, hM, abs_of_nonneg h0.le, ← div_pow, ← (hℓ i hi).2]
      exact (hlt _ _ (hℓ i hi).1 (div_nonneg (abs_nonneg _) h0.le)).2 hr

/-- C137 for every Euclidean metric whose values are powers of lengths. -/
theorem c137_euclidean {T : KdTree α d (Branch1 α d)} (hA : EuclideanAdditive M)
    (h : KdTree.make (euclideanTag α d) M N pts n o fuel = .ok T) (hR : Representable N pts n o) (hn : 0 < n)
    (q : Pt α d) (hP : P ≠ 0) (hM : ∀ x, M.one x = |x| ^ P) (hℓ : ∀ i < n, 0 ≤ ℓ i ∧ ℓ i ^ P = M.dist q (pts i))
    (hbig : ∀ i < n, M.dist q (pts i) < N.big) : InLengths T q n ℓ :=
  lengths_of_exact h hn (exactAt_euclidean hA h hR hn q) hP hM hℓ hbig

/-- C137 for every topological metric whose values are powers of lengths. -/
theorem c137_topological {T : KdTree α d (Branch2 α d)} (hA : TopologicalAdditive M)
    (h : KdTree.make (topologicalTag α d) M N pts n o fuel = .ok T) (hR : Representable N pts n o) (hn : 0 < n)
    (q : Pt α d) (hc : CircleOk M.space pts n o q) (hP : P ≠ 0) (hM : ∀ x, M.one x = |x| ^ P)
    (hℓ : ∀ i < n, 0 ≤ ℓ i ∧ ℓ i ^ P = M.dist q (pts i)) (hbig : ∀ i < n, M.dist q (pts i) < N.big) :
    InLengths T q n ℓ :=
  lengths_of_exact h hn (exactAt_topological hA h hR hn q hc) hP hM hℓ hbig

end Lengths

/-! ## The distances of Mathlib -/

section Real
variable {d n fuel : Nat} {N : Num ℝ}

/-- The distance of the code on the circle is that of `ℝ / ℤ`. -/
theorem circle_eq_dist {x y : ℝ} (hx : 0 ≤ x ∧ x ≤ 1) (hy : 0 ≤ y ∧ y ≤ 1) :
    Spec.circle x y = dist (x : UnitAddCircle) (y : UnitAddCircle) := by
  have h1 : |x - y| ≤ 1 := abs_le.2 ⟨by linarith [hx.1, hy.2], by linarith [hx.2, hy.1]⟩
  rw [dist_eq_norm, ← AddCircle.coe_sub, UnitAddCircle.norm_eq]
  unfold Spec.circle
  generalize x - y = u at h1
  rw [abs_sub_round_eq_min]
  rcases lt_trichotomy u 0 with h0 | rfl | h0
  · rw [abs_of_neg h0] at h1 ⊢
    rcases eq_or_lt_of_le h1 with e | e
    · obtain rfl : u = -1 := by linarith
      rw [show Int.fract (-1 : ℝ) = 0 by exact_mod_cast Int.fract_intCast (R := ℝ) (-1)]
      norm_num
    · have : Int.fract u = u + 1 := by
        rw [Int.fract_eq_iff]
        exact ⟨by linarith, by linarith, -1, by push_cast; ring⟩
      rw [this, min_comm]
      congr 1 <;> ring
  · simp
  · rw [abs_of_pos h0] at h1 ⊢
    rcases eq_or_lt_of_le h1 with e | e
    · subst e
      simp
    · rw [Int.fract_eq_self.2 ⟨h0.le, e⟩]

section Euclidean
variable {pts : Nat → Pt ℝ d} {o : BuildOpts ℝ d} {T : KdTree ℝ d (Branch1 ℝ d)}

/-- C137 for `metric_l1`. -/
theorem c137_l1 (h : KdTree.make (euclideanTag ℝ d) (metricL1 ℝ d) N pts n o fuel = .ok T)
    (hR : Representable N pts n o) (hn : 0 < n) (q : Pt ℝ d) (hbig : ∀ i < n, Spec.l1 q (pts i) < N.big) :
    InLengths T q n fun i => dist (WithLp.toLp 1 q) (WithLp.toLp 1 (pts i)) := by
  have e : ∀ i, (metricL1 ℝ d).dist q (pts i) = Spec.l1 q (pts i) := fun i => congrFun (l1_fun q pts) i
  refine c137_euclidean additive_l1 h hR hn q (P := 1) one_ne_zero (fun x => by simp [metricL1, sabs_eq])
    (fun i _ => ⟨dist_nonneg, ?_⟩) (fun i hi => by rw [e]; exact hbig i hi)
  rw [e, pow_one, PiLp.dist_eq_of_L1]
  rfl

/-- C137 for `metric_l2_squared`. -/
theorem c137_l2 (h : KdTree.make (euclideanTag ℝ d) (metricL2Sq ℝ d) N pts n o fuel = .ok T)
    (hR : Representable N pts n o) (hn : 0 < n) (q : Pt ℝ d) (hbig : ∀ i < n, Spec.l2Sq q (pts i) < N.big) :
    InLengths T q n fun i => dist (WithLp.toLp 2 q) (WithLp.toLp 2 (pts i)) := by
  have e : ∀ i, (metricL2Sq ℝ d).dist q (pts i) = Spec.l2Sq q (pts i) := fun i => congrFun (l2_fun q pts) i
  refine c137_euclidean additive_l2Sq h hR hn q (P := 2) two_ne_zero
    (fun x => by simp [metricL2Sq, squared, sq]) (fun i _ => ⟨dist_nonneg, ?_⟩) (fun i hi => by rw [e]; exact hbig i hi)
  rw [e, PiLp.dist_sq_eq_of_L2]
  exact Finset.sum_congr rfl fun j _ => by rw [Real.dist_eq, sq_abs]

/-- C137 for `metric_lp_p<P>` of the custom metric example. -/
theorem c137_lp {P : Nat} (hP : P ≠ 0)
    (h : KdTree.make (euclideanTag ℝ d) (metricLpP ℝ P d) N pts n o fuel = .ok T) (hR : Representable N pts n o)
    (hn : 0 < n) (q : Pt ℝ d) (hbig : ∀ i < n, (metricLpP ℝ P d).dist q (pts i) < N.big) :
    InLengths T q n fun i => dist (WithLp.toLp (P : ENNReal) q) (WithLp.toLp (P : ENNReal) (pts i)) := by
  refine c137_euclidean (additive_lpP P) h hR hn q hP (fun x => by simp [metricLpP, npowRep_eq, sabs_eq])
    (fun i _ => ?_) hbig
  have h0 : (0 : ℝ) < (P : ENNReal).toReal := by
    rw [ENNReal.toReal_natCast]
    exact_mod_cast Nat.pos_of_ne_zero hP
  have hs : (0 : ℝ) ≤ ∑ j, |q j - pts i j| ^ P := Finset.sum_nonneg fun j _ => pow_nonneg (abs_nonneg _) _
  simp only [PiLp.dist_eq_sum h0, ENNReal.toReal_natCast, Real.rpow_natCast, Real.dist_eq, metricLpP, loopSum_eq,
    npowRep_eq, sabs_eq]
  refine ⟨Real.rpow_nonneg hs _, ?_⟩
  rw [one_div]
  exact Real.rpow_inv_natCast_pow hs hP

end Euclidean

/-- C137 for `metric_so2`: lengths on the circle `ℝ / ℤ`. -/
theorem c137_so2 {pts : Nat → Pt ℝ 1} {o : BuildOpts ℝ 1} {T : KdTree ℝ 1 (Branch2 ℝ 1)}
    (h : KdTree.make (topologicalTag ℝ 1) (metricSO2 ℝ) N pts n o fuel = .ok T) (hR : Representable N pts n o)
    (hn : 0 < n) (q : Pt ℝ 1) (hc : CircleOk (fun _ => .s1) pts n o q)
    (hbig : ∀ i < n, Spec.circle (q 0) (pts i 0) < N.big) :
    InLengths T q n fun i => dist (q 0 : UnitAddCircle) (pts i 0 : UnitAddCircle) := by
  have e : ∀ i, (metricSO2 ℝ).dist q (pts i) = Spec.circle (q 0) (pts i 0) := fun i => congrFun (so2_fun q pts) i
  refine c137_topological topological_so2 h hR hn q hc (P := 1) one_ne_zero (fun x => by simp [metricSO2, sabs_eq])
    (fun i hi => ⟨dist_nonneg, ?_⟩) (fun i hi => by rw [e]; exact hbig i hi)
  rw [e, pow_one, circle_eq_dist (hc.query 0 rfl) (hc.points i hi 0 rfl)]

/-- C137 for `metric_se2_squared`: lengths in the product of the plane and the circle. -/
theorem c137_se2 {pts : Nat → Pt ℝ 3} {o : BuildOpts ℝ 3} {T : KdTree ℝ 3 (Branch2 ℝ 3)}
    (h : KdTree.make (topologicalTag ℝ 3) (metricSE2Sq ℝ) N pts n o fuel = .ok T) (hR : Representable N pts n o)
    (hn : 0 < n) (q : Pt ℝ 3) (hc : CircleOk se2Axes pts n o q) (hbig : ∀ i < n, Spec.se2Sq q (pts i) < N.big) :
    InLengths T q n fun i =>
      dist (WithLp.toLp 2 (WithLp.toLp 2 ![q 0, q 1], (q 2 : UnitAddCircle)) :
          WithLp 2 (PiLp 2 (fun _ : Fin 2 => ℝ) × UnitAddCircle))
        (WithLp.toLp 2 (WithLp.toLp 2 ![pts i 0, pts i 1], (pts i 2 : UnitAddCircle))) := by
  have e : ∀ i, (metricSE2Sq ℝ).dist q (pts i) = Spec.se2Sq q (pts i) := fun i => congrFun (se2_fun q pts) i
  refine c137_topological topological_se2 h hR hn q (se2_space (α := ℝ) ▸ hc) (P := 2) two_ne_zero
    (fun x => by simp [metricSE2Sq, squared, sq]) (fun i hi => ⟨dist_nonneg, ?_⟩) (fun i hi => by rw [e]; exact hbig i hi)
  rw [e, WithLp.prod_dist_eq_of_L2, Real.sq_sqrt (by positivity), PiLp.dist_sq_eq_of_L2, Fin.sum_univ_two]
  show dist (q 0) (pts i 0) ^ 2 + dist (q 1) (pts i 1) ^ 2 + dist (q 2 : UnitAddCircle) (pts i 2 : UnitAddCircle) ^ 2 = _
  rw [← circle_eq_dist (hc.query 2 rfl) (hc.points i hi 2 rfl), Real.dist_eq, Real.dist_eq, sq_abs, sq_abs]
  rfl

/-- C137 for the torus of the custom metric example: lengths in the product of circles. -/
theorem c137_t2 {pts : Nat → Pt ℝ d} {o : BuildOpts ℝ d} {T : KdTree ℝ d (Branch2 ℝ d)}
    (h : KdTree.make (topologicalTag ℝ d) (metricT2Sq ℝ d) N pts n o fuel = .ok T) (hR : Representable N pts n o)
    (hn : 0 < n) (q : Pt ℝ d) (hc : CircleOk (fun _ => .s1) pts n o q)
    (hbig : ∀ i < n, (metricT2Sq ℝ d).dist q (pts i) < N.big) :
    InLengths T q n fun i =>
      dist (WithLp.toLp 2 fun j => (q j : UnitAddCircle) : PiLp 2 fun _ : Fin d => UnitAddCircle)
        (WithLp.toLp 2 fun j => (pts i j : UnitAddCircle)) := by
  refine c137_topological topological_t2 h hR hn q hc (P := 2) two_ne_zero
    (fun x => by simp [metricT2Sq, squared, sq]) (fun i hi => ⟨dist_nonneg, ?_⟩) hbig
  rw [PiLp.dist_sq_eq_of_L2]
  simp only [metricT2Sq, loopSum_eq, squaredS1Distance, squared, s1Distance_eq]
  exact Finset.sum_congr rfl fun j _ => by rw [circle_eq_dist (hc.query j rfl) (hc.points i hi j rfl), sq]

end Real

/-! ## Example -/

/-- Points at the lengths 0, 5, 10 and 15 from the query. -/
def pythagoras : Nat → Pt Rat 2 := fun i => ![3 * i, -4 * i]

example : ∃ T, KdTree.make (euclideanTag Rat 2) (metricL2Sq Rat 2) Ref.ratNum pythagoras 4 (Ref.optsMedian Rat 2) 10
      = .ok T ∧ InLengths T ![0, 0] 4 fun i => 5 * i := by
  obtain ⟨T, h, -⟩ := Outcome.exists_of_check
    (x := KdTree.make (euclideanTag Rat 2) (metricL2Sq Rat 2) Ref.ratNum pythagoras 4 (Ref.optsMedian Rat 2) 10)
    (p := fun _ => true) (by decide +kernel)
  exact ⟨T, h, c137_euclidean additive_l2Sq h ⟨by decide +kernel, by unfold InRange; decide +kernel, trivial,
    fun h => by simp [Ref.optsMedian] at h⟩ (by decide) _ (P := 2) (by decide)
    (fun x => by simp [metricL2Sq, squared, sq]) (by decide +kernel) (by decide +kernel)⟩

/-- Poses with coordinates from 0 to 1: a tree exists, and searches in lengths. -/
example (pts : Nat → Pt ℝ 3) (hp : ∀ i j, 0 ≤ pts i j ∧ pts i j ≤ 1) (q : Pt ℝ 3) (hq : ∀ j, 0 ≤ q j ∧ q j ≤ 1)
    {n : Nat} (hn : 0 < n) : ∃ fuel T,
    KdTree.make (topologicalTag ℝ 3) (metricSE2Sq ℝ) ⟨-1000, 1000, (· / 2), (· / 2)⟩ pts n (Ref.optsMedian ℝ 3) fuel = .ok T ∧
    InLengths T q n fun i =>
      dist (WithLp.toLp 2 (WithLp.toLp 2 ![q 0, q 1], (q 2 : UnitAddCircle)) :
          WithLp 2 (PiLp 2 (fun _ : Fin 2 => ℝ) × UnitAddCircle))
        (WithLp.toLp 2 (WithLp.toLp 2 ![pts i 0, pts i 1], (pts i 2 : UnitAddCircle))) := by
  obtain ⟨fuel, T, h⟩ := c22_terminates_partial (pts := pts) (o := Ref.optsMedian ℝ 3) (topologicalTag ℝ 3) (metricSE2Sq ℝ)
    (splitSafe_field (N := ⟨-1000, 1000, (· / 2), (· / 2)⟩) (fun _ => rfl) (fun _ => rfl) (a := (0 : ℝ)) (b := 1)
      (by norm_num))
    (by norm_num) hn (by simp [Ref.optsMedian]) (fun m h => by cases h; norm_num [Ref.optsMedian]) (fun i _ j => hp i j)
    (by norm_num) (fun mn mx h => by cases h)
  refine ⟨fuel, T, h fuel le_rfl, c137_se2 (h fuel le_rfl)
    ⟨by norm_num, fun i _ j => ⟨by show -1000 ≤ pts i j; linarith [(hp i j).1], by show pts i j ≤ 1000; linarith [(hp i j).2]⟩,
      trivial, fun h => by simp [Ref.optsMedian] at h⟩ hn q
    ⟨fun i _ j _ => hp i j, fun j _ => hq j, fun h => by simp [Ref.optsMedian] at h⟩ fun i _ => ?_⟩
  have hab : ∀ j, |q j - pts i j| ≤ 1 := fun j =>
    abs_le.2 ⟨by linarith [(hq j).1, (hp i j).2], by linarith [(hq j).2, (hp i j).1]⟩
  have hsq : ∀ j, (q j - pts i j) ^ 2 ≤ 1 := fun j => (sq_le_one_iff_abs_le_one _).2 (hab j)
  have hci : Spec.circle (q 2) (pts i 2) ^ 2 ≤ 1 := by
    refine (sq_le_one_iff_abs_le_one _).2 (abs_le.2 ⟨?_, ?_⟩) <;> unfold Spec.circle
    · exact le_min (by linarith [abs_nonneg (q 2 - pts i 2)]) (by linarith [hab 2])
    · exact (min_le_left _ _).trans (hab 2)
  show Spec.se2Sq q (pts i) < 1000
  unfold Spec.se2Sq
  linarith [hsq 0, hsq 1]

end Pico.Props
