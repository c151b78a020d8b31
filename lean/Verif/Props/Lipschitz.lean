import Verif.Proof.Merge
import Verif.Props.Nearest
import Verif.Props.MetricLaws
import Verif.Props.Infinity
import Mathlib.Algebra.Order.BigOperators.Ring.Finset
import Mathlib.Analysis.Real.Sqrt

/-!
# C135: distances change no faster than the query moves
-/

set_option linter.unusedSectionVars false

namespace Pico.Props

open Pico Spec

section Follow
variable {α : Type} [LinearOrder α] [Zero α] [Add α] [Sub α] {d : Nat} {β : Type}

/-- Searches with the queries `q'` and `q`: what is found up to the distance `a` from `q'` is found up to the distance `b`
from `q`. -/
structure Follow (T : KdTree α d β) (q' q : Pt α d) (a b : α) : Prop where
  nn : ∀ nn' nn, (T.searchNn q' nn').distance ≤ a → (T.searchNn q nn).distance ≤ b
  knn : ∀ k prior' prior, 0 < k → ∃ out' out, T.searchKnn q' k prior' = .ok out' ∧ T.searchKnn q k prior = .ok out ∧
    out.length = out'.length ∧
    ∀ (i : Nat) (h' : i < out'.length) (h : i < out.length), out'[i].distance ≤ a → out[i].distance ≤ b
  radius : ∀ sorter' sorter r' r prior' prior sort' sort, b < r →
    ∀ x ∈ T.searchRadius sorter' q' r' prior' sort', x.distance ≤ a →
      ∃ y ∈ T.searchRadius sorter q r prior sort, y.index = x.index ∧ y.distance ≤ b

variable {tag : SpaceTag α d β} {M : Metric α d} {N : Num α} {pts : Nat → Pt α d} {n : Nat} {o : BuildOpts α d}
  {fuel : Nat} {T : KdTree α d β} {q' q : Pt α d} {a b : α}

theorem follow_of_exact (h : KdTree.make tag M N pts n o fuel = .ok T) (hn : 0 < n) (hE' : ExactAt T q')
    (hE : ExactAt T q) (hbig' : ∀ i < n, M.dist q' (pts i) < N.big) (hbig : ∀ i < n, M.dist q (pts i) < N.big)
    (hab : ∀ i < n, M.dist q' (pts i) ≤ a → M.dist q (pts i) ≤ b) : Follow T q' q a b := by
  refine ⟨fun nn' nn hle => ?_, fun k prior' prior hk => ?_,
    fun sorter' sorter r' r prior' prior sort' sort hb x hx hxa => ?_⟩
  · have h1 := nn_of_exact h hE' hn rfl hbig' nn'
    have h2 := nn_of_exact h hE hn rfl hbig nn
    exact (h2.nearest _ h1.valid).trans (hab _ h1.valid (by rw [← h1.distance]; exact hle))
  · obtain ⟨out', h1', -, h3'⟩ := knn_of_exact h hE' hn rfl hbig' k hk prior'
    obtain ⟨out, h1, -, h3⟩ := knn_of_exact h hE hn rfl hbig k hk prior
    have hl' := congrArg List.length h3'
    have hl := congrArg List.length h3
    rw [List.length_map, Spec.length_smallest] at hl' hl
    refine ⟨out', out, h1', h1, by omega, fun i hi' hi hle => ?_⟩
    have e : out[i].distance = (((List.range n).map fun i => M.dist q (pts i)).mergeSort
        (fun a b => decide (a ≤ b)))[i]'(by simp; omega) := by
      rw [← List.getElem_map Neighbor.distance (h := by simpa using hi)]
      simp only [h3, Spec.smallest, List.getElem_take]
    have e' : out'[i].distance = (((List.range n).map fun i => M.dist q' (pts i)).mergeSort
        (fun a b => decide (a ≤ b)))[i]'(by simp; omega) := by
      rw [← List.getElem_map Neighbor.distance (h := by simpa using hi')]
      simp only [h3', Spec.smallest, List.getElem_take]
    rw [e'] at hle
    rw [e]
    refine (sorted_le_of_count (mergeSort_sorted _) (mergeSort_sorted _) ?_ _ hle).2
    rw [(List.mergeSort_perm _ _).countP_eq, (List.mergeSort_perm _ _).countP_eq, List.countP_map, List.countP_map]
    refine List.countP_mono_left fun i hi => ?_
    simp only [Function.comp, decide_eq_true_iff]
    exact hab i (List.mem_range.1 hi)
  · have h1 := (radius_of_exact h hE' rfl sorter' r' prior' sort').1.subset hx
    rw [List.mem_filter, Spec.all, List.mem_map] at h1
    obtain ⟨⟨i, hi, rfl⟩, -⟩ := h1
    have hi := List.mem_range.1 hi
    refine ⟨⟨i, M.dist q (pts i)⟩, (radius_of_exact h hE rfl sorter r prior sort).1.symm.subset ?_, rfl,
      hab i hi hxa⟩
    rw [List.mem_filter, Spec.all, List.mem_map]
    exact ⟨⟨i, List.mem_range.2 hi, rfl⟩, decide_eq_true ((hab i hi hxa).trans_lt hb)⟩

end Follow

section Metrics
variable {α : Type} [CommRing α] [LinearOrder α] [IsStrictOrderedRing α] {d : Nat} {N : Num α}
  {n : Nat} {fuel : Nat}

theorem l1_triangle (x y z : Pt α d) : Spec.l1 x z ≤ Spec.l1 x y + Spec.l1 y z := by
  have := (c41_l1 (α := α) (d := d)).triangle x y z
  simpa only [metricL1, loopSum_eq, r1Distance, sabs_eq, Spec.l1] using this

/-- The triangle inequality for roots of sums of squares, without roots. -/
theorem sq_triangle {ι : Type} (I : Finset ι) (u v w : ι → α) (hw : ∀ i, |w i| ≤ |u i| + |v i|) {s t : α} (hs : 0 ≤ s)
    (ht : 0 ≤ t) (hu : ∑ i ∈ I, u i ^ 2 ≤ s ^ 2) (hv : ∑ i ∈ I, v i ^ 2 ≤ t ^ 2) : ∑ i ∈ I, w i ^ 2 ≤ (s + t) ^ 2 := by
  have c : (∑ i ∈ I, |u i| * |v i|) ^ 2 ≤ (s * t) ^ 2 := by
    refine (Finset.sum_mul_sq_le_sq_mul_sq I (fun i => |u i|) fun i => |v i|).trans ?_
    simp only [sq_abs]
    rw [mul_pow]
    exact mul_le_mul hu hv (Finset.sum_nonneg fun i _ => sq_nonneg _) (sq_nonneg _)
  have c' : ∑ i ∈ I, |u i| * |v i| ≤ s * t := abs_le_of_sq_le_sq' c (mul_nonneg hs ht) |>.2
  have h1 : ∑ i ∈ I, w i ^ 2 ≤ ∑ i ∈ I, (u i ^ 2 + v i ^ 2 + 2 * (|u i| * |v i|)) := by
    refine Finset.sum_le_sum fun i _ => ?_
    have := hw i
    have h0 := abs_nonneg (w i)
    have e : u i ^ 2 + v i ^ 2 + 2 * (|u i| * |v i|) = (|u i| + |v i|) ^ 2 := by
      rw [← sq_abs (u i), ← sq_abs (v i)]; ring
    rw [e, ← sq_abs (w i)]
    exact pow_le_pow_left₀ h0 this 2
  rw [Finset.sum_add_distrib, Finset.sum_add_distrib, ← Finset.mul_sum] at h1
  nlinarith

theorem l2_triangle (x y z : Pt α d) {s t : α} (hs : 0 ≤ s) (ht : 0 ≤ t) (h1 : Spec.l2Sq x y ≤ s ^ 2)
    (h2 : Spec.l2Sq y z ≤ t ^ 2) : Spec.l2Sq x z ≤ (s + t) ^ 2 :=
  sq_triangle Finset.univ (fun j => x j - y j) (fun j => y j - z j) (fun j => x j - z j)
    (fun j => by simpa using abs_add_le (x j - y j) (y j - z j)) hs ht h1 h2

theorem circle_triangle {x y z : α} (hx : 0 ≤ x ∧ x ≤ 1) (hy : 0 ≤ y ∧ y ≤ 1) (hz : 0 ≤ z ∧ z ≤ 1) :
    Spec.circle x z ≤ Spec.circle x y + Spec.circle y z := by
  have := (circle_full (α := α)).triangle ⟨x, hx⟩ ⟨y, hy⟩ ⟨z, hz⟩
  simpa only [s1Distance_eq] using this

theorem unitCircle_nonneg {x y : α} (hx : 0 ≤ x ∧ x ≤ 1) (hy : 0 ≤ y ∧ y ≤ 1) : 0 ≤ Spec.circle x y := by
  have := (circle_full (α := α)).nonneg ⟨x, hx⟩ ⟨y, hy⟩
  simpa only [s1Distance_eq] using this

theorem se2_triangle {x y z : Pt α 3} (hx : 0 ≤ x 2 ∧ x 2 ≤ 1) (hy : 0 ≤ y 2 ∧ y 2 ≤ 1) (hz : 0 ≤ z 2 ∧ z 2 ≤ 1)
    {s t : α} (hs : 0 ≤ s) (ht : 0 ≤ t) (h1 : Spec.se2Sq x y ≤ s ^ 2) (h2 : Spec.se2Sq y z ≤ t ^ 2) :
    Spec.se2Sq x z ≤ (s + t) ^ 2 := by
  have e : ∀ a b : Pt α 3, Spec.se2Sq a b = ∑ j : Fin 3, (![a 0 - b 0, a 1 - b 1, Spec.circle (a 2) (b 2)] j) ^ 2 := by
    intro a b
    rw [Fin.sum_univ_three]
    rfl
  rw [e] at h1 h2 ⊢
  refine sq_triangle Finset.univ _ _ _ (fun j => ?_) hs ht h1 h2
  fin_cases j
  · simpa using abs_add_le (x 0 - y 0) (y 0 - z 0)
  · simpa using abs_add_le (x 1 - y 1) (y 1 - z 1)
  · show |Spec.circle (x 2) (z 2)| ≤ |Spec.circle (x 2) (y 2)| + |Spec.circle (y 2) (z 2)|
    rw [abs_of_nonneg (unitCircle_nonneg hx hz), abs_of_nonneg (unitCircle_nonneg hx hy), abs_of_nonneg (unitCircle_nonneg hy hz)]
    exact circle_triangle hx hy hz

variable {pts : Nat → Pt α d} {o : BuildOpts α d} {T : KdTree α d (Branch1 α d)}

/-- C135 for `metric_l1`: the distances grow by at most the Manhattan distance of the queries. -/
theorem c135_l1 (h : KdTree.make (euclideanTag α d) (metricL1 α d) N pts n o fuel = .ok T)
    (hR : Representable N pts n o) (hn : 0 < n) (q' q : Pt α d) (hbig' : ∀ i < n, Spec.l1 q' (pts i) < N.big)
    (hbig : ∀ i < n, Spec.l1 q (pts i) < N.big) (a : α) : Follow T q' q a (Spec.l1 q q' + a) := by
  have e : ∀ q : Pt α d, ∀ i, (metricL1 α d).dist q (pts i) = Spec.l1 q (pts i) := fun q i => congrFun (l1_fun q pts) i
  refine follow_of_exact h hn (exactAt_euclidean additive_l1 h hR hn q') (exactAt_euclidean additive_l1 h hR hn q)
    (fun i hi => by rw [e]; exact hbig' i hi) (fun i hi => by rw [e]; exact hbig i hi) fun i _ hle => ?_
  rw [e] at hle ⊢
  exact (l1_triangle q q' (pts i)).trans (by linarith)

/-- C135 for `metric_l1`, nearest neighbor: its distance is 1-Lipschitz in the query. -/
theorem c135_nn_l1 (h : KdTree.make (euclideanTag α d) (metricL1 α d) N pts n o fuel = .ok T)
    (hR : Representable N pts n o) (hn : 0 < n) (q' q : Pt α d) (hbig' : ∀ i < n, Spec.l1 q' (pts i) < N.big)
    (hbig : ∀ i < n, Spec.l1 q (pts i) < N.big) (nn' nn : Neighbor α) :
    |(T.searchNn q nn).distance - (T.searchNn q' nn').distance| ≤ Spec.l1 q q' := by
  have h1 := (c135_l1 h hR hn q' q hbig' hbig (T.searchNn q' nn').distance).nn nn' nn le_rfl
  have h2 := (c135_l1 h hR hn q q' hbig hbig' (T.searchNn q nn).distance).nn nn nn' le_rfl
  have e : Spec.l1 q' q = Spec.l1 q q' := Finset.sum_congr rfl fun j _ => abs_sub_comm _ _
  rw [e] at h2
  exact abs_sub_le_iff.2 ⟨by linarith, by linarith⟩

/-- C135 for `metric_l2_squared`: the roots of the distances grow by at most the root of the distance of the queries. -/
theorem c135_l2 (h : KdTree.make (euclideanTag α d) (metricL2Sq α d) N pts n o fuel = .ok T)
    (hR : Representable N pts n o) (hn : 0 < n) (q' q : Pt α d) (hbig' : ∀ i < n, Spec.l2Sq q' (pts i) < N.big)
    (hbig : ∀ i < n, Spec.l2Sq q (pts i) < N.big) {s t : α} (hs : 0 ≤ s) (ht : 0 ≤ t) (hq : Spec.l2Sq q q' ≤ t ^ 2) :
    Follow T q' q (s ^ 2) ((t + s) ^ 2) := by
  have e : ∀ q : Pt α d, ∀ i, (metricL2Sq α d).dist q (pts i) = Spec.l2Sq q (pts i) := fun q i =>
    congrFun (l2_fun q pts) i
  refine follow_of_exact h hn (exactAt_euclidean additive_l2Sq h hR hn q') (exactAt_euclidean additive_l2Sq h hR hn q)
    (fun i hi => by rw [e]; exact hbig' i hi) (fun i hi => by rw [e]; exact hbig i hi) fun i _ hle => ?_
  rw [e] at hle ⊢
  exact l2_triangle q q' (pts i) ht hs hq hle

/-- C135 for `metric_so2`. -/
theorem c135_so2 {pts : Nat → Pt α 1} {o : BuildOpts α 1} {T : KdTree α 1 (Branch2 α 1)}
    (h : KdTree.make (topologicalTag α 1) (metricSO2 α) N pts n o fuel = .ok T) (hR : Representable N pts n o)
    (hn : 0 < n) (q' q : Pt α 1) (hc' : CircleOk (fun _ => .s1) pts n o q') (hc : CircleOk (fun _ => .s1) pts n o q)
    (hbig' : ∀ i < n, Spec.circle (q' 0) (pts i 0) < N.big) (hbig : ∀ i < n, Spec.circle (q 0) (pts i 0) < N.big) (a : α) :
    Follow T q' q a (Spec.circle (q 0) (q' 0) + a) := by
  have e : ∀ q : Pt α 1, ∀ i, (metricSO2 α).dist q (pts i) = Spec.circle (q 0) (pts i 0) := fun q i => by
    simp only [metricSO2, s1Distance_eq]
  refine follow_of_exact h hn (exactAt_topological topological_so2 h hR hn q' hc')
    (exactAt_topological topological_so2 h hR hn q hc)
    (fun i hi => by rw [e]; exact hbig' i hi) (fun i hi => by rw [e]; exact hbig i hi) fun i hi hle => ?_
  rw [e] at hle ⊢
  exact (circle_triangle (hc.query 0 rfl) (hc'.query 0 rfl) (hc.points i hi 0 rfl)).trans (by linarith)

/-- C135 for `metric_se2_squared`. -/
theorem c135_se2 {pts : Nat → Pt α 3} {o : BuildOpts α 3} {T : KdTree α 3 (Branch2 α 3)}
    (h : KdTree.make (topologicalTag α 3) (metricSE2Sq α) N pts n o fuel = .ok T) (hR : Representable N pts n o)
    (hn : 0 < n) (q' q : Pt α 3) (hc' : CircleOk se2Axes pts n o q') (hc : CircleOk se2Axes pts n o q)
    (hbig' : ∀ i < n, Spec.se2Sq q' (pts i) < N.big) (hbig : ∀ i < n, Spec.se2Sq q (pts i) < N.big)
    {s t : α} (hs : 0 ≤ s) (ht : 0 ≤ t) (hq : Spec.se2Sq q q' ≤ t ^ 2) : Follow T q' q (s ^ 2) ((t + s) ^ 2) := by
  have e : ∀ q : Pt α 3, ∀ i, (metricSE2Sq α).dist q (pts i) = Spec.se2Sq q (pts i) := fun q i =>
    congrFun (se2_fun q pts) i
  refine follow_of_exact h hn (exactAt_topological topological_se2 h hR hn q' (se2_space (α := α) ▸ hc'))
    (exactAt_topological topological_se2 h hR hn q (se2_space (α := α) ▸ hc))
    (fun i hi => by rw [e]; exact hbig' i hi) (fun i hi => by rw [e]; exact hbig i hi) fun i hi hle => ?_
  rw [e] at hle ⊢
  exact se2_triangle (hc.query 2 rfl) (hc'.query 2 rfl) (hc.points i hi 2 rfl) ht hs hq hle

end Metrics

/-- C135 for `metric_l2_squared` over the real numbers, nearest neighbor: its Euclidean distance is 1-Lipschitz in the
query. -/
theorem c135_nn_l2 {d n fuel : Nat} {N : Num ℝ} {pts : Nat → Pt ℝ d} {o : BuildOpts ℝ d} {T : KdTree ℝ d (Branch1 ℝ d)}
    (h : KdTree.make (euclideanTag ℝ d) (metricL2Sq ℝ d) N pts n o fuel = .ok T)
    (hR : Representable N pts n o) (hn : 0 < n) (q' q : Pt ℝ d) (hbig' : ∀ i < n, Spec.l2Sq q' (pts i) < N.big)
    (hbig : ∀ i < n, Spec.l2Sq q (pts i) < N.big) (nn' nn : Neighbor ℝ) :
    |√(T.searchNn q nn).distance - √(T.searchNn q' nn').distance| ≤ √(Spec.l2Sq q q') := by
  have e : Spec.l2Sq q' q = Spec.l2Sq q q' := Finset.sum_congr rfl fun j _ => by ring
  have h0 : ∀ x y : Pt ℝ d, 0 ≤ Spec.l2Sq x y := fun x y => Finset.sum_nonneg fun j _ => sq_nonneg _
  have hnn : ∀ q : Pt ℝ d, (∀ i < n, Spec.l2Sq q (pts i) < N.big) → ∀ nn, 0 ≤ (T.searchNn q nn).distance := by
    intro q hb nn
    rw [(c01_nn_l2 h hR hn q hb nn).distance]
    exact h0 _ _
  have key : ∀ q' q : Pt ℝ d, (∀ i < n, Spec.l2Sq q' (pts i) < N.big) → (∀ i < n, Spec.l2Sq q (pts i) < N.big) →
      ∀ nn' nn, √(T.searchNn q nn).distance ≤ √(Spec.l2Sq q q') + √(T.searchNn q' nn').distance := by
    intro q' q hb' hb nn' nn
    refine Real.sqrt_le_iff.2 ⟨by positivity, ?_⟩
    exact (c135_l2 h hR hn q' q hb' hb (Real.sqrt_nonneg _) (Real.sqrt_nonneg _) (Real.sq_sqrt (h0 _ _)).ge).nn nn' nn
      (Real.sq_sqrt (hnn q' hb' nn')).ge
  have h1 := key q' q hbig' hbig nn' nn
  have h2 := key q q' hbig hbig' nn nn'
  rw [e] at h2
  exact abs_sub_le_iff.2 ⟨by linarith, by linarith⟩

/-- The distances found with `metric_lpinf` jump: the query moves by one half, the distance by more. -/
theorem c135_lpinf : ∃ T, KdTree.make (euclideanTag Rat 2) (metricLPInf Rat 2) Ref.ratNum maxPts 5 (Ref.optsMedian Rat 2) 10
      = .ok T ∧
    (metricLPInf Rat 2).dist ![4, 5] ![7 / 2, 5] <
      |(T.searchNn ![4, 5] ⟨0, 0⟩).distance - (T.searchNn ![7 / 2, 5] ⟨0, 0⟩).distance| := by
  obtain ⟨T, h, hp⟩ := Outcome.exists_of_check
    (x := KdTree.make (euclideanTag Rat 2) (metricLPInf Rat 2) Ref.ratNum maxPts 5 (Ref.optsMedian Rat 2) 10)
    (p := fun T => decide ((metricLPInf Rat 2).dist ![4, 5] ![7 / 2, 5] <
      |(T.searchNn ![4, 5] ⟨0, 0⟩).distance - (T.searchNn ![7 / 2, 5] ⟨0, 0⟩).distance|)) (by decide +kernel)
  exact ⟨T, h, of_decide_eq_true hp⟩

/-! ## Examples -/

/-- The same points with `metric_l1` and `metric_l2_squared`. -/
example : ∃ T, KdTree.make (euclideanTag Rat 2) (metricL1 Rat 2) Ref.ratNum maxPts 5 (Ref.optsMedian Rat 2) 10 = .ok T ∧
    ∀ a, Follow T ![7 / 2, 5] ![4, 5] a (Spec.l1 (![4, 5] : Pt Rat 2) ![7 / 2, 5] + a) := by
  obtain ⟨T, h, -⟩ := Outcome.exists_of_check
    (x := KdTree.make (euclideanTag Rat 2) (metricL1 Rat 2) Ref.ratNum maxPts 5 (Ref.optsMedian Rat 2) 10)
    (p := fun _ => true) (by decide +kernel)
  exact ⟨T, h, c135_l1 h ⟨by decide +kernel, by unfold InRange; decide +kernel, trivial,
    fun h => by simp [Ref.optsMedian] at h⟩ (by decide) _ _ (by decide +kernel) (by decide +kernel)⟩

example : ∃ T, KdTree.make (euclideanTag Rat 2) (metricL2Sq Rat 2) Ref.ratNum maxPts 5 (Ref.optsMedian Rat 2) 10 = .ok T ∧
    Follow T ![7 / 2, 5] ![4, 5] (3 ^ 2) ((1 / 2 + 3) ^ 2) := by
  obtain ⟨T, h, -⟩ := Outcome.exists_of_check
    (x := KdTree.make (euclideanTag Rat 2) (metricL2Sq Rat 2) Ref.ratNum maxPts 5 (Ref.optsMedian Rat 2) 10)
    (p := fun _ => true) (by decide +kernel)
  exact ⟨T, h, c135_l2 h ⟨by decide +kernel, by unfold InRange; decide +kernel, trivial,
    fun h => by simp [Ref.optsMedian] at h⟩ (by decide) _ _ (by decide +kernel) (by decide +kernel) (by decide +kernel)
    (by decide +kernel) (by decide +kernel)⟩

end Pico.Props
