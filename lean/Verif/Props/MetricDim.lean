import Verif.Props.Reads
import Verif.Props.Nearest

/-!
# C122: a metric for a fixed dimension is rejected for points of another dimension
-/

set_option linter.unusedSectionVars false

namespace Pico.Props

open Pico Spec

section
variable {α : Type} [LinearOrder α] [Zero α] [One α] [Add α] [Sub α] [Neg α] [Mul α] {d : Nat}

theorem computes_so2At (hd : 0 < d) : Computes (iterSO2 α) (metricSO2At α d hd) := by
  refine ⟨fun x y p hp => ?_, fun _ => rfl, fun _ => rfl⟩
  have h0 := hp ⟨0, hd⟩
  have h0' := rd_ofFn x ⟨0, hd⟩
  simp only at h0 h0'
  simp only [iterSO2, h0, h0', Outcome.bind_ok]
  rfl

theorem computes_se2At (hd : 3 ≤ d) : Computes (iterSE2Sq α) (metricSE2SqAt α d hd) := by
  refine ⟨fun x y p hp => ?_, fun _ => rfl, fun _ => rfl⟩
  have h0 := hp ⟨0, by omega⟩
  have h0' := rd_ofFn x ⟨0, by omega⟩
  have h1 := hp ⟨1, by omega⟩
  have h1' := rd_ofFn x ⟨1, by omega⟩
  have h2 := hp ⟨2, hd⟩
  have h2' := rd_ofFn x ⟨2, hd⟩
  simp only at h0 h0' h1 h1' h2 h2'
  simp only [iterSE2Sq, h0, h0', h1, h1', h2, h2', Outcome.bind_ok]
  rfl

/-- `metric_se2_squared` with points in the plane or on a line: every nearest search in a vector of arrays reads behind
an array (trees without empty leaves). -/
theorem c122_se2_short_false {β : Type} {tag : SpaceTag α d β} {R : ReadTag α d β} {M : Metric α d} {N : Num α}
    {pts : Nat → Pt α d} {n : Nat} {o : BuildOpts α d} {fuel : Nat} {T : KdTree α d β} (hd : d < 3)
    (h : KdTree.make tag M N pts n o fuel = .ok T) (hn : 0 < n) (hr : o.rule ≠ .midpoint) {q : List α} (hq : q.length = d)
    {σ : Type} (V : Visitor α σ) (s : σ) :
    T.searchNearestC R (iterSE2Sq α) (vectorSpace ((List.range n).map fun i => List.ofFn (pts i))) q V s = .ub := by
  obtain ⟨h1, -, -, -⟩ := reads_tree h
  obtain ⟨h5, -, -⟩ := c20_nonempty h hn hr
  unfold KdTree.searchNearestC
  rw [searchNearestC_ub V (fun i hi => ?_) (fun j => ⟨_, rd_firstOf hq.ge j⟩) T.data.root h5 0 (fun _ => 0, s)]
  · rfl
  · have hv : ∀ j, vectorSpace ((List.range n).map fun i => List.ofFn (pts i)) i j = rd (List.ofFn (pts i)) j := by
      intro j
      unfold vectorSpace
      rw [rd_of_lt (by simpa using h1 i hi), Outcome.bind_ok, List.getElem_map, List.getElem_range]
    have ho : ∀ (l : List α) j, (∃ v, rd l j = .ok v) ∨ rd l j = .ub := by
      intro l j; unfold rd; split
      · exact Or.inl ⟨_, rfl⟩
      · exact Or.inr rfl
    simp only [iterSE2Sq, hv]
    rcases ho q 0 with ⟨_, e⟩ | e <;> rw [e]
    swap; · rfl
    rcases ho (List.ofFn (pts i)) 0 with ⟨_, e⟩ | e <;> rw [Outcome.bind_ok, e]
    swap; · rfl
    rcases ho q 1 with ⟨_, e⟩ | e <;> rw [Outcome.bind_ok, e]
    swap; · rfl
    rcases ho (List.ofFn (pts i)) 1 with ⟨_, e⟩ | e <;> rw [Outcome.bind_ok, e]
    swap; · rfl
    rw [Outcome.bind_ok, rd_of_le (by omega)]
    rfl

end

section
variable {α : Type} [Field α] [LinearOrder α] [IsStrictOrderedRing α] {N : Num α} {n fuel : Nat}

/-- C122 (partial: points of the dimension that the metric is made for): `metric_so2` in dimension one reads only the
coordinate of the query and those of the points, and gives the nearest neighbor. -/
theorem c122_so2_partial {pts : Nat → Pt α 1} {o : BuildOpts α 1} {T : KdTree α 1 (Branch2 α 1)}
    (h : KdTree.make (topologicalTag α 1) (metricSO2 α) N pts n o fuel = .ok T) (hR : Representable N pts n o)
    (hn : 0 < n) {space : Nat → Reader α} (hs : Holds space pts n) {q : List α} (hq : q.length = 1)
    (hc : CircleOk (fun _ => .s1) pts n o (firstOf q hq.ge))
    (hbig : ∀ i < n, Spec.circle (firstOf q hq.ge 0) (pts i 0) < N.big) (nn : Neighbor α) :
    ∃ r, T.searchNearestC (topologicalRead α 1) (iterSO2 α) space q nnVisitor (nnInit N nn) = .ok r ∧
      Spec.IsNN n (fun i => Spec.circle (firstOf q hq.ge 0) (pts i 0)) r := by
  refine ⟨_, c121_nearest_topological computes_so2 h hs hq nnVisitor _, ?_⟩
  have := c10_nn_so2 h hR hn _ hc hbig nn
  obtain ⟨-, -, rfl, -⟩ := KdTree.make_ok h
  exact this

/-- C122 (partial): `metric_se2_squared` in dimension three. -/
theorem c122_se2_partial {pts : Nat → Pt α 3} {o : BuildOpts α 3} {T : KdTree α 3 (Branch2 α 3)}
    (h : KdTree.make (topologicalTag α 3) (metricSE2Sq α) N pts n o fuel = .ok T) (hR : Representable N pts n o)
    (hn : 0 < n) {space : Nat → Reader α} (hs : Holds space pts n) {q : List α} (hq : q.length = 3)
    (hc : CircleOk se2Axes pts n o (firstOf q hq.ge))
    (hbig : ∀ i < n, Spec.se2Sq (firstOf q hq.ge) (pts i) < N.big) (nn : Neighbor α) :
    ∃ r, T.searchNearestC (topologicalRead α 3) (iterSE2Sq α) space q nnVisitor (nnInit N nn) = .ok r ∧
      Spec.IsNN n (fun i => Spec.se2Sq (firstOf q hq.ge) (pts i)) r := by
  refine ⟨_, c121_nearest_topological computes_se2 h hs hq nnVisitor _, ?_⟩
  have := c11_nn_se2 h hR hn _ hc hbig nn
  obtain ⟨-, -, rfl, -⟩ := KdTree.make_ok h
  exact this

end

/-! ## Witnesses -/

/-- Two points of the unit square. -/
def planePts2 : Nat → Pt Rat 2
  | 0 => ![1/2, 9/10]
  | _ => ![3/10, 1/10]

/-- `metric_so2` with points of dimension two: the distance is that of the first coordinates, but the tree is searched as
if all coordinates counted. For the query `(9/20, 1/10)` point 1 at distance 3/20 is returned, point 0 has distance
1/20. -/
theorem c122_so2_false : ∃ T, KdTree.make (topologicalTag Rat 2) (metricSO2At Rat 2 (by decide)) Ref.ratNum planePts2 2
      (Ref.optsSliding Rat 2) 10 = .ok T ∧
    T.searchNearestC (topologicalRead Rat 2) (iterSO2 Rat) (vectorSpace [[1/2, 9/10], [3/10, 1/10]]) [9/20, 1/10]
      nnVisitor (nnInit Ref.ratNum ⟨0, 0⟩) = .ok ⟨1, 3/20⟩ ∧
    (iterSO2 Rat).dist [9/20, 1/10] (vectorSpace [[1/2, 9/10], [3/10, 1/10]] 0) = .ok (1/20) := by
  obtain ⟨T, h, hp⟩ := Outcome.exists_of_check
    (x := KdTree.make (topologicalTag Rat 2) (metricSO2At Rat 2 (by decide)) Ref.ratNum planePts2 2
      (Ref.optsSliding Rat 2) 10)
    (p := fun T => decide (T.searchNearestC (topologicalRead Rat 2) (iterSO2 Rat)
      (vectorSpace [[1/2, 9/10], [3/10, 1/10]]) [9/20, 1/10] nnVisitor (nnInit Ref.ratNum ⟨0, 0⟩) = .ok ⟨1, 3/20⟩))
    (by decide +kernel)
  exact ⟨T, h, by simpa using hp, by decide +kernel⟩

/-- Two motions with a fourth coordinate. -/
def motionPts : Nat → Pt Rat 4
  | 0 => ![0, 0, 1/2, 9/10]
  | _ => ![0, 0, 3/10, 1/10]

/-- `metric_se2_squared` with points of dimension four: the same. -/
theorem c122_se2_false : ∃ T, KdTree.make (topologicalTag Rat 4) (metricSE2SqAt Rat 4 (by decide)) Ref.ratNum motionPts 2
      (Ref.optsSliding Rat 4) 10 = .ok T ∧
    T.searchNearestC (topologicalRead Rat 4) (iterSE2Sq Rat) (vectorSpace [[0, 0, 1/2, 9/10], [0, 0, 3/10, 1/10]])
      [0, 0, 9/20, 1/10] nnVisitor (nnInit Ref.ratNum ⟨0, 0⟩) = .ok ⟨1, 9/400⟩ ∧
    (iterSE2Sq Rat).dist [0, 0, 9/20, 1/10] (vectorSpace [[0, 0, 1/2, 9/10], [0, 0, 3/10, 1/10]] 0) = .ok (1/400) := by
  obtain ⟨T, h, hp⟩ := Outcome.exists_of_check
    (x := KdTree.make (topologicalTag Rat 4) (metricSE2SqAt Rat 4 (by decide)) Ref.ratNum motionPts 2
      (Ref.optsSliding Rat 4) 10)
    (p := fun T => decide (T.searchNearestC (topologicalRead Rat 4) (iterSE2Sq Rat)
      (vectorSpace [[0, 0, 1/2, 9/10], [0, 0, 3/10, 1/10]]) [0, 0, 9/20, 1/10] nnVisitor
      (nnInit Ref.ratNum ⟨0, 0⟩) = .ok ⟨1, 9/400⟩)) (by decide +kernel)
  exact ⟨T, h, by simpa using hp, by decide +kernel⟩

/-- The hypotheses of `c122_se2_partial` are met by the four motions of C11. -/
example : ∃ T, KdTree.make (topologicalTag Rat 3) (metricSE2Sq Rat) Ref.ratNum Ref.poses4 4 (Ref.optsMidpoint Rat 3) 10 =
      .ok T ∧ T.searchNearestC (topologicalRead Rat 3) (iterSE2Sq Rat)
        (vectorSpace ((List.range 4).map fun i => List.ofFn (Ref.poses4 i))) [0, 1/4, 1] nnVisitor
        (nnInit Ref.ratNum ⟨77, 0⟩) = .ok ⟨0, 29/400⟩ := by
  obtain ⟨T, h, hp⟩ := Outcome.exists_of_check
    (x := KdTree.make (topologicalTag Rat 3) (metricSE2Sq Rat) Ref.ratNum Ref.poses4 4 (Ref.optsMidpoint Rat 3) 10)
    (p := fun T => decide (T.searchNearestC (topologicalRead Rat 3) (iterSE2Sq Rat)
        (vectorSpace ((List.range 4).map fun i => List.ofFn (Ref.poses4 i))) [0, 1/4, 1] nnVisitor
        (nnInit Ref.ratNum ⟨77, 0⟩) = .ok ⟨0, 29/400⟩)) (by decide +kernel)
  exact ⟨T, h, by simpa using hp⟩

/-- `metric_se2_squared` on points in the plane. -/
example : ∃ T, KdTree.make (topologicalTag Rat 2) (metricSO2At Rat 2 (by decide)) Ref.ratNum planePts2 2
      (Ref.optsSliding Rat 2) 10 = .ok T ∧
    T.searchNearestC (topologicalRead Rat 2) (iterSE2Sq Rat) (vectorSpace [[1/2, 9/10], [3/10, 1/10]]) [9/20, 1/10]
      nnVisitor (nnInit Ref.ratNum ⟨0, 0⟩) = .ub := by
  obtain ⟨T, h, hp⟩ := Outcome.exists_of_check
    (x := KdTree.make (topologicalTag Rat 2) (metricSO2At Rat 2 (by decide)) Ref.ratNum planePts2 2
      (Ref.optsSliding Rat 2) 10)
    (p := fun T => decide (T.searchNearestC (topologicalRead Rat 2) (iterSE2Sq Rat)
      (vectorSpace [[1/2, 9/10], [3/10, 1/10]]) [9/20, 1/10] nnVisitor (nnInit Ref.ratNum ⟨0, 0⟩) = .ub))
    (by decide +kernel)
  exact ⟨T, h, by simpa using hp⟩

end Pico.Props
