import Verif.Model.Gtest
import Verif.Props.Sizes
import Verif.Props.Python
import Verif.Props.DArray
import Verif.Props.TestHelpers
import Verif.Props.TopoApprox
import Verif.Props.Rounding
import Verif.Model.Cover
import Mathlib.Data.List.Permutation

/-!
# C110: the unit tests of the repository, replayed on the model

The tests with fixed inputs check the model: their expectations were written for the real code.  Where a test depends
on the standard library, the expectations are shown for every implementation that meets the standard.
-/

namespace Pico.Props

open Spec Gtest

section Numbers

/-- C110: segment_test.cpp and distance_test.cpp in single precision. -/
theorem c110_segments :
    let e := lit (1 / 100000)
    near (Segment.r1Distance ⟨lit (6/10), lit (9/10)⟩ (lit (7/10))) (lit 0) e = true ∧
    near (Segment.r1Distance ⟨lit (4/10), lit (6/10)⟩ (lit (3/10))) (lit (1/10)) e = true ∧
    near (Segment.s1DistanceMinMax ⟨lit (4/10), lit (6/10)⟩ (lit (3/10))) (lit (1/10)) e = true ∧
    near (Segment.s1DistanceMinMax ⟨lit (4/10), lit (6/10)⟩ (lit (5/10))) (lit 0) e = true ∧
    near (Segment.s1DistanceMinMax ⟨lit (9/10), lit 1⟩ (lit (1/10))) (lit (1/10)) e = true ∧
    near (Segment.s1DistanceMaxMin ⟨lit (9/10), lit (1/10)⟩ (lit 0)) (lit 0) e = true ∧
    near (Segment.s1DistanceMaxMin ⟨lit (9/10), lit (1/10)⟩ (lit (2/10))) (lit (1/10)) e = true ∧
    near (Segment.s1Distance ⟨lit (9/10), lit (1/10)⟩ (lit (2/10))) (lit (1/10)) e = true ∧
    near (Segment.s1Distance ⟨lit (4/10), lit (6/10)⟩ (lit (3/10))) (lit (1/10)) e = true := by
  decide +kernel

theorem c110_distances :
    let e := lit (1 / 100000)
    near (r1Distance (lit (19/10)) (lit (11/10))) (lit (8/10)) e = true ∧
    near (r1Distance (lit (11/10)) (lit (19/10))) (lit (8/10)) e = true ∧
    near (s1Distance (lit (4/10)) (lit (6/10))) (lit (2/10)) e = true ∧
    near (s1Distance (lit (6/10)) (lit (4/10))) (lit (2/10)) e = true ∧
    near (s1Distance (lit (1/10)) (lit (9/10))) (lit (2/10)) e = true ∧
    near (squared (lit (8/10))) (lit (64/100)) e = true ∧
    near (squaredR1Distance (lit (19/10)) (lit (11/10))) (lit (64/100)) e = true ∧
    near (squaredR1Distance (lit (11/10)) (lit (19/10))) (lit (64/100)) e = true ∧
    near (squaredS1Distance (lit (4/10)) (lit (6/10))) (lit (4/100)) e = true ∧
    near (squaredS1Distance (lit (6/10)) (lit (4/10))) (lit (4/100)) e = true ∧
    near (squaredS1Distance (lit (1/10)) (lit (9/10))) (lit (4/100)) e = true := by
  decide +kernel

/-- `numeric_limits<float>`. -/
def floatNum : Num F32 := (ieee 23 (-149)).num (lit (-((2 ^ 24 - 1) * 2 ^ 104))) (lit ((2 ^ 24 - 1) * 2 ^ 104))

/-- C110: metric_test.cpp.  `metric_lninf` starts with `numeric_limits::max()`; the square root of 25 is 5. -/
theorem c110_metrics (sqrt : F32 → F32) (hsqrt : sqrt (lit 25) = lit 5) :
    floatEq ((metricL1 F32 2).dist ![lit 2, lit 4] ![lit 10, lit 1]) (lit 11) = true ∧
    floatEq ((metricL1 F32 2).one (lit (-31/10))) (lit (31/10)) = true ∧
    floatEq ((metricL2 sqrt 2).dist ![lit 7, lit 5] ![lit 10, lit 1]) (lit 5) = true ∧
    floatEq ((metricL2 sqrt 2).one (lit (-31/10))) (lit (31/10)) = true ∧
    floatEq ((metricL2Sq F32 2).dist ![lit 2, lit 4] ![lit 10, lit 1]) (lit 73) = true ∧
    floatEq ((metricL2Sq F32 2).one (lit (-31/10))) (lit (961/100)) = true ∧
    floatEq ((metricLPInf F32 2).dist ![lit 2, lit 4] ![lit 10, lit 1]) (lit 8) = true ∧
    floatEq ((metricLPInf F32 2).one (lit (-31/10))) (lit (31/10)) = true ∧
    floatEq ((metricLNInf floatNum 2).dist ![lit 2, lit 4] ![lit 10, lit 1]) (lit 3) = true ∧
    floatEq ((metricLNInf floatNum 2).one (lit (-31/10))) (lit (31/10)) = true ∧
    floatEq ((metricSO2 F32).dist ![lit (5/10)] ![lit (6/10)]) (lit (1/10)) = true ∧
    floatEq ((metricSO2 F32).one (lit (-1/10))) (lit (1/10)) = true ∧
    floatEq ((metricSE2Sq F32).dist ![lit 2, lit 4, lit (5/10)] ![lit 10, lit 1, lit (6/10)]) (lit 73 + lit (1/100)) = true ∧
    floatEq ((metricSE2Sq F32).one (lit (-1/10))) (lit (1/100)) = true := by
  have h : (metricL2 sqrt 2).dist ![lit 7, lit 5] ![lit 10, lit 1] = lit 5 := by
    change sqrt ((metricL2Sq F32 2).dist ![lit 7, lit 5] ![lit 10, lit 1]) = lit 5
    rw [show (metricL2Sq F32 2).dist ![lit 7, lit 5] ![lit 10, lit 1] = lit 25 by decide +kernel, hsqrt]
  rw [h]
  have h2 : (metricL2 sqrt 2).one (lit (-31/10)) = sabs (lit (-31/10)) := rfl
  rw [h2]
  decide +kernel

end Numbers

section Box
variable {α : Type} [LinearOrder α] {d : Nat}

/-- C110: box_test.cpp for every dimension and scalar type: after `fill_inverse_max` the box fits a point exactly, and
then a box that contains it. -/
theorem c110_box (N : Num α) (z lo hi : α) (h1 : N.low < lo) (h2 : lo < z) (h3 : z < hi) (h4 : hi < N.big) :
    (Box.inverseMax N : Box α d) = ⟨fun _ => N.big, fun _ => N.low⟩ ∧
    (Box.inverseMax N : Box α d).fitPt (fun _ => z) = ⟨fun _ => z, fun _ => z⟩ ∧
    ((Box.inverseMax N : Box α d).fitPt fun _ => z).fitBox ⟨fun _ => lo, fun _ => hi⟩ =
      ⟨fun _ => lo, fun _ => hi⟩ := by
  have e : (Box.inverseMax N : Box α d).fitPt (fun _ => z) = ⟨fun _ => z, fun _ => z⟩ := by
    simp only [Box.inverseMax, Box.fitPt, gt_iff_lt, h3.trans h4, h1.trans h2, if_true]
  refine ⟨rfl, e, ?_⟩
  rw [e]
  simp only [Box.fitBox, gt_iff_lt, h2, h3, if_true]

example : (floatNum.low < lit (-1) ∧ lit (-1) < lit 0 ∧ lit 0 < lit 1 ∧ lit 1 < floatNum.big) := by decide +kernel

end Box

section Splitters

/-- The points of KdTreeTest.SplitterMedian. -/
def ptsx4 : Nat → Pt F32 2
  | 0 => ![lit 0, lit 4]
  | 1 => ![lit 0, lit 2]
  | 2 => ![lit 0, lit 3]
  | _ => ![lit 0, lit 1]

def ptsx7 : Nat → Pt F32 2
  | 0 => ![lit 3, lit 6]
  | 1 => ![lit 0, lit 4]
  | 2 => ![lit 0, lit 2]
  | 3 => ![lit 0, lit 5]
  | 4 => ![lit 0, lit 3]
  | 5 => ![lit 0, lit 1]
  | _ => ![lit 1, lit 7]

/-- The points of KdTreeTest.SplitterMidpoint and SplitterSlidingMidpoint. -/
def ptsy4 : Nat → Pt F32 2
  | 0 => ![lit 0, lit 2]
  | 1 => ![lit 0, lit 1]
  | 2 => ![lit 0, lit 4]
  | _ => ![lit 0, lit 3]

/-- The box `[0, x] x [0, y]`. -/
def boxTo (x y : ℚ) : Box F32 2 := ⟨![lit 0, lit 0], ![lit x, lit y]⟩

theorem partition_countP (S : Std) (p : Nat → Bool) (l : List Nat) : (S.partition p l).2 = l.countP p := by
  rw [← (S.partition_perm p l).countP_eq p]
  conv_rhs => rw [← List.take_append_drop (S.partition p l).2 (S.partition p l).1]
  have h1 : List.countP p ((S.partition p l).1.take (S.partition p l).2) = (S.partition p l).2 := by
    rw [List.countP_eq_length.2 (S.partition_left p l), List.length_take, (S.partition_perm p l).length_eq]
    exact (min_eq_left (S.partition_le p l)).symm ▸ rfl
  have h2 : List.countP p ((S.partition p l).1.drop (S.partition p l).2) = 0 :=
    List.countP_eq_zero.2 fun x hx => by simp [S.partition_right p l x hx]
  rw [List.countP_append, h1, h2, Nat.add_zero]

theorem nthSplit_ok {d : Nat} (S : Std) (pts : Nat → Pt F32 d) (dim : Fin d) {k : Nat} {seg : List Nat}
    (hk : k < seg.length) : ∃ sp, nthSplit S pts dim k seg = .ok sp ∧ sp.pos = k ∧ sp.dim = dim ∧
      sp.seg.Perm seg ∧ sp.seg[k]?.map (fun i => pts i dim) = some sp.val ∧
      sp.seg = S.nth (coordLt pts dim) k seg := by
  have hp := S.nth_perm _ k seg (strictWeak_coordLt pts dim)
  have hl : k < (S.nth (coordLt pts dim) k seg).length := by rw [hp.length_eq]; exact hk
  unfold nthSplit
  dsimp only
  rw [List.getElem?_eq_getElem hl]
  exact ⟨_, rfl, rfl, rfl, hp, by rw [List.getElem?_eq_getElem hl]; rfl, rfl⟩

/-- C110: KdTreeTest.SplitterMedian (kd_tree_builder_test.cpp:15-74), with every `std::nth_element`. -/
theorem c110_splitter_median (S : Std) :
    (∃ sp, splitMedian S floatNum ptsx4 [0, 1, 2, 3] (boxTo 1 0) = .ok sp ∧ sp.pos = 2 ∧ sp.dim = 0 ∧
      sp.val = ptsx4 2 0) ∧
    ∃ sp, splitMedian S floatNum ptsx7 [0, 1, 2, 3, 4, 5, 6] (boxTo 1 0) = .ok sp ∧ sp.pos = 3 ∧ sp.dim = 0 ∧
      sp.seg[3]?.map (fun i => ptsx7 i 0) = some sp.val ∧
      ∃ sp', splitMedian S floatNum ptsx7 (sp.seg.drop 3) (boxTo 1 10) = .ok sp' ∧ 3 + sp'.pos = 5 ∧ sp'.dim = 1 ∧
        (sp.seg.take 3 ++ sp'.seg)[5]?.map (fun i => ptsx7 i 1) = some sp'.val := by
  have m1 : ((boxTo 1 0).maxSide floatNum).1 = some 0 := by decide +kernel
  have m2 : ((boxTo 1 10).maxSide floatNum).1 = some 1 := by decide +kernel
  refine ⟨?_, ?_⟩
  · obtain ⟨sp, h1, h2, h3, h4, h5, -⟩ := nthSplit_ok S ptsx4 0 (k := 2) (seg := [0, 1, 2, 3]) (by decide)
    refine ⟨sp, ?_, h2, h3, ?_⟩
    · unfold splitMedian
      rw [m1]
      exact h1
    · have hall : ∀ i, ptsx4 i 0 = lit 0 := by
        intro i
        match i with
        | 0 => rfl
        | 1 => rfl
        | 2 => rfl
        | _ + 3 => rfl
      cases hx : sp.seg[2]? with
      | none => rw [hx] at h5; simp at h5
      | some i =>
        rw [hx, Option.map_some, Option.some.injEq] at h5
        rw [← h5, hall, hall]
  · obtain ⟨sp, h1, h2, h3, h4, h5, -⟩ := nthSplit_ok S ptsx7 0 (k := 3) (seg := [0, 1, 2, 3, 4, 5, 6]) (by decide)
    have hlen : sp.seg.length = 7 := h4.length_eq
    obtain ⟨sp', k1, k2, k3, k4, k5, -⟩ := nthSplit_ok S ptsx7 1 (k := 2) (seg := sp.seg.drop 3)
      (by rw [List.length_drop, hlen]; decide)
    refine ⟨sp, ?_, h2, h3, h5, sp', ?_, by rw [k2], k3, ?_⟩
    · unfold splitMedian
      rw [m1]
      exact h1
    · unfold splitMedian
      rw [m2]
      simp only [List.length_drop, hlen]
      exact k1
    · rw [List.getElem?_append_right (by rw [List.length_take, hlen]; decide), List.length_take, hlen]
      exact k5

/-- The number of points of `ptsy4` below a border, in any order. -/
theorem below_y4 {seg : List Nat} (h : seg.Perm [0, 1, 2, 3]) (dim : Fin 2) (v : F32) :
    seg.countP (coordBelow ptsy4 dim v) = [0, 1, 2, 3].countP (coordBelow ptsy4 dim v) := h.countP_eq _

/-- C110: KdTreeTest.SplitterMidpoint (kd_tree_builder_test.cpp:76-136), with every `std::partition`, and with the
indices in any order at every step: all points to the right, all to the left, a split in the middle, equal
coordinates. -/
theorem c110_splitter_midpoint (S : Std) {seg : List Nat} (h : seg.Perm [0, 1, 2, 3]) :
    (∃ sp, splitMidpoint S floatNum ptsy4 seg (boxTo 0 1) = .ok sp ∧ sp.seg.Perm seg ∧ sp.pos = 0 ∧ sp.dim = 1 ∧
      sp.val = (lit 1 + lit 0) / lit 2) ∧
    (∃ sp, splitMidpoint S floatNum ptsy4 seg (boxTo 0 9) = .ok sp ∧ sp.seg.Perm seg ∧ sp.pos = 4 ∧ sp.dim = 1 ∧
      sp.val = (lit 9 + lit 0) / lit 2) ∧
    (∃ sp, splitMidpoint S floatNum ptsy4 seg (boxTo 0 5) = .ok sp ∧ sp.seg.Perm seg ∧ sp.pos = 2 ∧ sp.dim = 1 ∧
      sp.val = (lit 5 + lit 0) / lit 2) ∧
    (∃ sp, splitMidpoint S floatNum ptsy4 seg (boxTo 15 5) = .ok sp ∧ sp.seg.Perm seg ∧ sp.pos = 4 ∧ sp.dim = 0 ∧
      sp.val = (lit 15 + lit 0) / lit 2) := by
  have key : ∀ (b : Box F32 2) (dim : Fin 2) (delta v : F32), b.maxSide floatNum = (some dim, delta) →
      floatNum.mulHalf delta + b.min dim = v → ∃ sp, splitMidpoint S floatNum ptsy4 seg b = .ok sp ∧
        sp.seg.Perm seg ∧ sp.pos = [0, 1, 2, 3].countP (coordBelow ptsy4 dim v) ∧ sp.dim = dim ∧ sp.val = v := by
    intro b dim delta v h1 h2
    unfold splitMidpoint
    rw [h1]
    dsimp only
    rw [h2]
    exact ⟨_, rfl, S.partition_perm _ _, by rw [partition_countP, below_y4 h], rfl, rfl⟩
  refine ⟨?_, ?_, ?_, ?_⟩
  · obtain ⟨sp, h1, h2, h3, h4, h5⟩ := key (boxTo 0 1) 1 (lit 1) ((lit 1 + lit 0) / lit 2) (by decide +kernel)
      (by decide +kernel)
    exact ⟨sp, h1, h2, h3.trans (by decide +kernel), h4, h5⟩
  · obtain ⟨sp, h1, h2, h3, h4, h5⟩ := key (boxTo 0 9) 1 (lit 9) ((lit 9 + lit 0) / lit 2) (by decide +kernel)
      (by decide +kernel)
    exact ⟨sp, h1, h2, h3.trans (by decide +kernel), h4, h5⟩
  · obtain ⟨sp, h1, h2, h3, h4, h5⟩ := key (boxTo 0 5) 1 (lit 5) ((lit 5 + lit 0) / lit 2) (by decide +kernel)
      (by decide +kernel)
    exact ⟨sp, h1, h2, h3.trans (by decide +kernel), h4, h5⟩
  · obtain ⟨sp, h1, h2, h3, h4, h5⟩ := key (boxTo 15 5) 0 (lit 15) ((lit 15 + lit 0) / lit 2) (by decide +kernel)
      (by decide +kernel)
    exact ⟨sp, h1, h2, h3.trans (by decide +kernel), h4, h5⟩

/-- What `nth_element` may return for the four points. -/
theorem nth_y4 (S : Std) {seg : List Nat} (h : seg.Perm [0, 1, 2, 3]) (dim : Fin 2) {k : Nat} (hk : k < 4)
    (P : List Nat → Bool)
    (hP : ∀ l ∈ [0, 1, 2, 3].permutations', (∀ x ∈ l.take k, ∀ y ∈ l.drop k, coordLt ptsy4 dim y x = false) →
      (∀ x ∈ l[k]?, ∀ y ∈ l.drop k, coordLt ptsy4 dim y x = false) → P l = true) :
    P (S.nth (coordLt ptsy4 dim) k seg) = true := by
  have hw := strictWeak_coordLt ptsy4 dim
  have hl : k < seg.length := by rw [h.length_eq]; exact hk
  exact hP _ (List.mem_permutations'.2 ((S.nth_perm _ k seg hw).trans h)) (S.nth_split _ k seg hw hl)
    (S.nth_min _ k seg hw hl)

/-- C110: KdTreeTest.SplitterSlidingMidpoint (kd_tree_builder_test.cpp:138-208), with every `std::partition` and
`std::nth_element`, and with the indices in any order at every step. -/
theorem c110_splitter_sliding (S : Std) {seg : List Nat} (h : seg.Perm [0, 1, 2, 3]) :
    (∃ sp, splitSliding S floatNum ptsy4 seg (boxTo 0 1) = .ok sp ∧ sp.seg.Perm seg ∧ sp.pos = 1 ∧ sp.dim = 1 ∧
      sp.val = ptsy4 0 1 ∧ sp.seg[0]? = some 1 ∧ sp.seg[1]? = some 0) ∧
    (∃ sp, splitSliding S floatNum ptsy4 seg (boxTo 0 9) = .ok sp ∧ sp.seg.Perm seg ∧ sp.pos = 3 ∧ sp.dim = 1 ∧
      sp.val = ptsy4 2 1 ∧ sp.seg[3]? = some 2) ∧
    (∃ sp, splitSliding S floatNum ptsy4 seg (boxTo 0 5) = .ok sp ∧ sp.seg.Perm seg ∧ sp.pos = 2 ∧ sp.dim = 1 ∧
      sp.val = (lit 5 + lit 0) / lit 2) ∧
    (∃ sp, splitSliding S floatNum ptsy4 seg (boxTo 15 5) = .ok sp ∧ sp.seg.Perm seg ∧ sp.pos = 3 ∧ sp.dim = 0 ∧
      sp.val = ptsy4 3 0) := by
  have key : ∀ (b : Box F32 2) (dim : Fin 2) (delta v : F32) (k : Nat), b.maxSide floatNum = (some dim, delta) →
      floatNum.divTwo delta + b.min dim = v → [0, 1, 2, 3].countP (coordBelow ptsy4 dim v) = k →
      ∃ seg', seg'.Perm [0, 1, 2, 3] ∧ splitSliding S floatNum ptsy4 seg b =
        if k = 4 then nthSplit S ptsy4 dim 3 seg' else if k = 0 then nthSplit S ptsy4 dim 1 seg'
        else .ok ⟨seg', k, dim, v⟩ := by
    intro b dim delta v k h1 h2 h3
    have hp := S.partition_perm (coordBelow ptsy4 dim v) seg
    have hl : (S.partition (coordBelow ptsy4 dim v) seg).1.length = 4 := by rw [hp.length_eq, h.length_eq]; rfl
    have hc : (S.partition (coordBelow ptsy4 dim v) seg).2 = k := by rw [partition_countP, below_y4 h, h3]
    refine ⟨_, hp.trans h, ?_⟩
    unfold splitSliding
    rw [h1]
    dsimp only
    rw [h2, hl, hc]
    by_cases h4 : k = 4
    · subst h4
      rfl
    · rw [if_neg h4, if_neg h4]
  have fin : ∀ (seg' : List Nat), seg'.Perm [0, 1, 2, 3] → seg'.Perm seg := fun _ hs => hs.trans h.symm
  refine ⟨?_, ?_, ?_, ?_⟩
  · obtain ⟨seg', hs, e⟩ := key (boxTo 0 1) 1 (lit 1) (lit (1 / 2)) 0 (by decide +kernel) (by decide +kernel)
      (by decide +kernel)
    obtain ⟨sp, h1, h2, h3, h4, h5, h6⟩ := nthSplit_ok S ptsy4 1 (k := 1) (seg := seg')
      (by rw [hs.length_eq]; decide)
    have hh := nth_y4 S hs 1 (k := 1) (by decide) (fun l => decide (l[0]? = some 1 ∧ l[1]? = some 0))
      (by decide +kernel)
    rw [← h6] at hh
    have hh := of_decide_eq_true hh
    refine ⟨sp, e.trans h1, h4.trans (fin _ hs), h2, h3, ?_, hh.1, hh.2⟩
    rw [hh.2, Option.map_some, Option.some.injEq] at h5
    exact h5.symm
  · obtain ⟨seg', hs, e⟩ := key (boxTo 0 9) 1 (lit 9) (lit (9 / 2)) 4 (by decide +kernel) (by decide +kernel)
      (by decide +kernel)
    obtain ⟨sp, h1, h2, h3, h4, h5, h6⟩ := nthSplit_ok S ptsy4 1 (k := 3) (seg := seg')
      (by rw [hs.length_eq]; decide)
    have hh := nth_y4 S hs 1 (k := 3) (by decide) (fun l => decide (l[3]? = some 2)) (by decide +kernel)
    rw [← h6] at hh
    have hh := of_decide_eq_true hh
    refine ⟨sp, e.trans h1, h4.trans (fin _ hs), h2, h3, ?_, hh⟩
    rw [hh, Option.map_some, Option.some.injEq] at h5
    exact h5.symm
  · obtain ⟨seg', hs, e⟩ := key (boxTo 0 5) 1 (lit 5) ((lit 5 + lit 0) / lit 2) 2 (by decide +kernel)
      (by decide +kernel) (by decide +kernel)
    exact ⟨_, e, fin _ hs, rfl, rfl, rfl⟩
  · obtain ⟨seg', hs, e⟩ := key (boxTo 15 5) 0 (lit 15) (lit (15 / 2)) 4 (by decide +kernel) (by decide +kernel)
      (by decide +kernel)
    obtain ⟨sp, h1, h2, h3, h4, h5, h6⟩ := nthSplit_ok S ptsy4 0 (k := 3) (seg := seg')
      (by rw [hs.length_eq]; decide)
    refine ⟨sp, e.trans h1, h4.trans (fin _ hs), h2, h3, ?_⟩
    have hall : ∀ i, ptsy4 i 0 = lit 0 := by
      intro i
      match i with
      | 0 => rfl
      | 1 => rfl
      | 2 => rfl
      | _ + 3 => rfl
    cases hx : sp.seg[3]? with
    | none => rw [hx] at h5; simp at h5
    | some i =>
      rw [hx, Option.map_some, Option.some.injEq] at h5
      rw [← h5, hall, hall]

end Splitters

section Leaves
variable {α β : Type} [LinearOrder α] [Add α] [Sub α] {d : Nat} {tag : SpaceTag α d β} {M : Metric α d} {N : Num α}
  {pts : Nat → Pt α d} {n : Nat} {o : BuildOpts α d} {fuel : Nat} {T : KdTree α d β}

theorem leavesFrom_complete (t : Tree β) : ∀ k m, k ≤ m → (∀ x ∈ leavesFrom k t, x.1 = m) →
    (leavesFrom k t).length = 2 ^ (m - k) := by
  induction t with
  | leaf b e =>
    intro k m _ h
    have h1 := h (k, b, e) (by simp [leavesFrom])
    have h1 : k = m := h1
    subst h1
    simp [leavesFrom]
  | branch b l r il ir =>
    intro k m hk h
    simp only [leavesFrom, List.mem_append] at h
    have key : ∀ (t : Tree β) (j : Nat), ∃ x ∈ leavesFrom j t, j ≤ x.1 := by
      intro t
      induction t with
      | leaf b e => exact fun j => ⟨(j, b, e), by simp [leavesFrom], le_rfl⟩
      | branch b l r il ir =>
        intro j
        obtain ⟨x, hx, hj⟩ := il (j + 1)
        exact ⟨x, by rw [leavesFrom, List.mem_append]; exact Or.inl hx, by omega⟩
    have hlt : k + 1 ≤ m := by
      obtain ⟨y, hy, hj⟩ := key l (k + 1)
      have := h y (Or.inl hy)
      omega
    rw [leavesFrom, List.length_append, il (k + 1) m hlt fun y hy => h y (Or.inl hy),
      ir (k + 1) m hlt fun y hy => h y (Or.inr hy)]
    have e : m - k = m - (k + 1) + 1 := by omega
    rw [e, Nat.pow_succ]
    omega

theorem tiles_ends : ∀ (rs : List (Nat × Nat)) (a b : Nat), Tiles a rs b → rs ≠ [] →
    rs.head?.map Prod.fst = some a ∧ rs.getLast?.map Prod.snd = some b
  | [], _, _, _, h => absurd rfl h
  | [(x, y)], a, b, h, _ => by
    obtain ⟨h1, -, h3⟩ := h
    have h3 : y = b := h3
    subst h1 h3
    simp
  | (x, y) :: z :: rs, a, b, h, _ => by
    obtain ⟨h1, -, h3⟩ := h
    have := tiles_ends (z :: rs) y b h3 (by simp)
    subst h1
    exact ⟨rfl, by rw [List.getLast?_cons_cons]; exact this.2⟩

theorem tiles_lengths : ∀ (rs : List (Nat × Nat)) (a b : Nat), Tiles a rs b →
    (rs.map fun r => r.2 - r.1).sum + a = b
  | [], a, b, h => by
    have h : a = b := h
    simp [h]
  | (x, y) :: rs, a, b, h => by
    obtain ⟨h1, h2, h3⟩ := h
    have := tiles_lengths rs y b h3
    rw [List.map_cons, List.sum_cons]
    dsimp only at *
    omega

theorem sum_range_two : ∀ n : Nat, 2 * (List.range n).sum = (n - 1) * n
  | 0 => rfl
  | n + 1 => by
    rw [List.range_succ, List.sum_append, Nat.mul_add, sum_range_two n]
    cases n with
    | zero => rfl
    | succ n =>
      simp only [List.sum_cons, List.sum_nil, Nat.add_sub_cancel]
      ring

/-- C110: KdTreeTest.LeafRanges (kd_tree_test.cpp:161-193) for all points and depths: the ranges hold all points, the
sum of their indices is `n (n - 1) / 2`, they reach from the first to the last index, and there are `2^m` of them
unless a leaf has a single point (the test expects `2^2`). -/
theorem c110_leaf_ranges_partial (h : KdTree.make tag M N pts n o fuel = .ok T) (hn : 0 < n) (hr : o.rule ≠ .midpoint)
    {m : Nat} (hs : o.stop = .maxLeafDepth m) (hm : m < 2 ^ (o.indexBits - 1)) :
    ∃ rs, T.leafRanges = .ok rs ∧ (rs.map fun r => r.2 - r.1).sum = n ∧
      2 * (rs.flatMap fun r => slice T.data.indices r.1 r.2).sum = (n - 1) * n ∧
      rs.head?.map Prod.fst = some 0 ∧ rs.getLast?.map Prod.snd = some n ∧
      (rs.length = 2 ^ m ∨ ∃ r ∈ rs, r.2 = r.1 + 1) := by
  obtain ⟨rs, h1, h2, h3, h4, h5⟩ := c17_leaf_ranges_partial h hn hr
  have hne : rs ≠ [] := by
    rintro rfl
    have h4 : 0 = n := h4
    omega
  obtain ⟨e1, e2⟩ := tiles_ends rs 0 n h4 hne
  refine ⟨rs, h1, by simpa using tiles_lengths rs 0 n h4, ?_, e1, e2, ?_⟩
  · rw [h5.sum_eq, sum_range_two]
  · by_cases hall : ∀ x ∈ leaves T.data.root, x.1 = m
    · left
      rw [h2, ranges, List.length_map]
      exact leavesFrom_complete T.data.root 0 m (Nat.zero_le _) hall
    · right
      push Not at hall
      obtain ⟨x, hx, hxm⟩ := hall
      obtain ⟨k1, k2⟩ := c19_leaf_depth_partial h hs hm x hx
      have hmem : x.2 ∈ rs := by rw [h2, ranges]; exact List.mem_map.2 ⟨x, hx, rfl⟩
      have := h3 _ hmem
      have := k2 (by omega)
      exact ⟨x.2, hmem, by omega⟩

/-- 99 points close to the origin and one far away. -/
def outlier100 : Nat → Pt ℚ 2
  | 0 => ![2, 1]
  | i => ![(i : ℚ) / 1000, (i : ℚ) / 500]

/-- KdTreeTest.LeafRanges can fail: of 100 points in a square of side 2 one may be alone in its half, so that there
are three ranges instead of four. -/
theorem c110_leaf_ranges_false :
    ∃ T, KdTree.make (euclideanTag ℚ 2) (metricL2Sq ℚ 2) Ref.ratNum outlier100 100
      ⟨Ref.std, .sliding, .maxLeafDepth 2, .fromSpace, 32⟩ 10 = .ok T ∧ (∀ i < 100, ∀ j, 0 ≤ outlier100 i j ∧
        outlier100 i j ≤ 2) ∧ ∃ rs, T.leafRanges = .ok rs ∧ rs.length = 3 := by
  obtain ⟨T, h1, h2⟩ := Outcome.exists_of_check (x := KdTree.make (euclideanTag ℚ 2) (metricL2Sq ℚ 2) Ref.ratNum
    outlier100 100 ⟨Ref.std, .sliding, .maxLeafDepth 2, .fromSpace, 32⟩ 10)
    (p := fun T => T.leafRanges.check fun rs => decide (rs.length = 3)) (by decide +kernel)
  obtain ⟨rs, h3, h4⟩ := Outcome.exists_of_check h2
  exact ⟨T, h1, by decide +kernel, rs, h3, of_decide_eq_true h4⟩

end Leaves

section Python

/-- The three points of kd_tree_test.py. -/
def pyPts : Nat → Pt F32 2
  | 0 => ![lit 2, lit 1]
  | 1 => ![lit 4, lit 3]
  | _ => ![lit 8, lit 7]

/-- `np.array([[2, 1], [4, 3], [8, 7]], dtype=np.float32)`. -/
def pyC : NArray F32 := ⟨.float32, [3, 2], [2, 1], 0, [lit 2, lit 1, lit 4, lit 3, lit 8, lit 7], true, true⟩

/-- The same with `order='F'`. -/
def pyF : NArray F32 := ⟨.float32, [3, 2], [1, 3], 0, [lit 2, lit 4, lit 8, lit 1, lit 3, lit 7], true, true⟩

/-- `a[::2]`. -/
def pyEvery2 : NArray F32 := ⟨.float32, [2, 2], [4, 1], 0, [lit 2, lit 1, lit 4, lit 3, lit 8, lit 7], true, false⟩

/-- `np.array([[[2, 1]], [[4, 3]], [[8, 7]]], dtype=np.float32)`. -/
def py3d : NArray F32 := ⟨.float32, [3, 1, 2], [2, 2, 1], 0, [lit 2, lit 1, lit 4, lit 3, lit 8, lit 7], true, true⟩

/-- The boxes of test_search_box. -/
def pyBoxes : NArray F32 := ⟨.float32, [8, 2], [2, 1], 0, [lit 0, lit 0, lit 3, lit 3, lit 2, lit 2, lit 3, lit 3,
  lit 0, lit 0, lit 9, lit 9, lit 6, lit 6, lit 9, lit 9], true, true⟩

/-- C110: test_creation_kd_tree.  Row and column major input, the buffer of the tree is that of the array, and the two
inputs that have to raise. -/
theorem c110_python_creation :
    ((treeMap pyC).check fun x => decide (x.2.size = 3 ∧ x.2.sdim = 2) &&
      decide (∀ (i : Fin 3) (j : Fin 2), x.2.coord i j = some (pyPts i j))) = true ∧
    treeMap pyEvery2 = .throws ∧
    ((treeMap pyF).check fun x => decide (x.2.size = 2 ∧ x.2.sdim = 3) &&
      decide ((request .float32 x.2).get [0, 0] = pyF.get [0, 0])) = true ∧
    treeMap py3d = .throws := by
  refine ⟨by decide +kernel, rfl, by decide +kernel, rfl⟩

/-- The tree of the Python tests: three points in a leaf of at most ten, with every standard library. -/
def pyTree (M : Metric F32 2) : KdTree F32 2 (Branch1 F32 2) :=
  ⟨euclideanTag F32 2, M, floatNum, pyPts, 3, ⟨[0, 1, 2], boxFromBounds floatNum pyPts 3 .fromSpace, .leaf 0 3⟩⟩

theorem pyTree_make (S : Std) (M : Metric F32 2) (fuel : Nat) :
    KdTree.make (euclideanTag F32 2) M floatNum pyPts 3 ⟨S, .sliding, .maxLeafSize 10, .fromSpace, 32⟩ (fuel + 1) =
      .ok (pyTree M) := by
  have h : isLeaf (KdTree.cfg (euclideanTag F32 2) floatNum pyPts
      ⟨S, .sliding, .maxLeafSize 10, .fromSpace, 32⟩) 0 (List.range 3).length = true := by
    change decide (((List.range 3).length : Int) ≤ castIndex 32 10) = true
    decide +kernel
  unfold KdTree.make buildTree createNode
  dsimp only
  rw [if_pos h]
  rfl

/-- C110: test_metric, test_search_knn, test_search_approximate_knn, test_search_radius,
test_search_approximate_radius and test_search_box of kd_tree_test.py. -/
theorem c110_python_search (sorter : StdSort (Neighbor F32)) :
    (metricL2Sq F32 2).one (lit (-2)) = lit 4 ∧ (metricL1 F32 2).one (lit (-2)) = lit 2 ∧
    (∃ nns, pyKnn (some 2) .float32 .neighborF ⟨0, 0⟩ (pyTree (metricL2Sq F32 2)).searchKnnRange pyC 2 = .ok nns ∧
      nns.shape = [3, 2] ∧ (∀ i : Fin 3, nns.get [i.val, 0] = some ⟨i.val, 0⟩) ∧
      ensureSize ⟨0, 0⟩ 3 true 2 nns = .ok nns) ∧
    (∃ nns, pyKnn (some 2) .float32 .neighborF ⟨0, 0⟩
        (fun x => (pyTree (metricL2Sq F32 2)).searchKnnApproxRange x (lit 1)) pyC 2 = .ok nns ∧
      nns.shape = [3, 2] ∧ (∀ i : Fin 3, nns.get [i.val, 0] = some ⟨i.val, 0⟩)) ∧
    pyRadius (some 2) .float32 .neighborF (fun x nn => (pyTree (metricL2Sq F32 2)).searchRadius sorter x
      ((metricL2Sq F32 2).one (lit (5/2))) nn false) pyC = .ok [[⟨0, 0⟩], [⟨1, 0⟩], [⟨2, 0⟩]] ∧
    pyRadius (some 2) .float32 .neighborF (fun x nn => (pyTree (metricL2Sq F32 2)).searchRadiusApprox sorter x
      ((metricL2Sq F32 2).one (lit (5/2))) (lit 1) nn false) pyC = .ok [[⟨0, 0⟩], [⟨1, 0⟩], [⟨2, 0⟩]] ∧
    ∃ nns, pyBox (some 2) .float32 .int32 (pyTree (metricL2Sq F32 2)).searchBox pyBoxes = .ok nns ∧
      nns.map List.length = [1, 0, 3, 1] ∧
      ∃ nns', getslice nns (some 0) (some 4) (some 2) = .ok nns' ∧ nns'.map List.length = [1, 3] ∧
        ∃ x, getitem nns' (-1) = .ok x ∧ x.length = 3 := by
  refine ⟨by decide +kernel, by decide +kernel, ?_, ?_, ?_, ?_, ?_⟩
  · obtain ⟨nns, h1, h2⟩ := Call.exists_of_check
      (x := pyKnn (some 2) .float32 .neighborF ⟨0, 0⟩ (pyTree (metricL2Sq F32 2)).searchKnnRange pyC 2)
      (p := fun nns => decide (nns.shape = [3, 2] ∧ (∀ i : Fin 3, nns.get [i.val, 0] = some ⟨i.val, 0⟩))) (by decide +kernel)
    obtain ⟨h2, h3⟩ := of_decide_eq_true h2
    refine ⟨nns, h1, h2, h3, ?_⟩
    unfold ensureSize
    rw [h2]
    rfl
  · obtain ⟨nns, h1, h2⟩ := Call.exists_of_check
      (x := pyKnn (some 2) .float32 .neighborF ⟨0, 0⟩
        (fun x => (pyTree (metricL2Sq F32 2)).searchKnnApproxRange x (lit 1)) pyC 2)
      (p := fun nns => decide (nns.shape = [3, 2] ∧ (∀ i : Fin 3, nns.get [i.val, 0] = some ⟨i.val, 0⟩))) (by decide +kernel)
    obtain ⟨h2, h3⟩ := of_decide_eq_true h2
    exact ⟨nns, h1, h2, h3⟩
  · have e : (fun x nn => (pyTree (metricL2Sq F32 2)).searchRadius sorter x ((metricL2Sq F32 2).one (lit (5/2))) nn
        false) = fun x nn => (pyTree (metricL2Sq F32 2)).searchNearest x
          (radiusVisitor ((metricL2Sq F32 2).one (lit (5/2)))) (radiusInit nn) := rfl
    rw [e]
    decide +kernel
  · have e : (fun x nn => (pyTree (metricL2Sq F32 2)).searchRadiusApprox sorter x
        ((metricL2Sq F32 2).one (lit (5/2))) (lit 1) nn false) = fun x nn =>
          (pyTree (metricL2Sq F32 2)).searchNearest x
          (approxRadiusVisitor (lit 1) ((metricL2Sq F32 2).one (lit (5/2)))) (radiusInit nn) := rfl
    rw [e]
    decide +kernel
  · exact ⟨[[0], [], [0, 1, 2], [2]], by decide +kernel, rfl, [[0], [0, 1, 2]], by decide +kernel, rfl, [0, 1, 2],
      by decide +kernel, rfl⟩

end Python

section Random
open TestHelpers

/-- Positions of floating point numbers are symmetric about zero, as `EXPECT_FLOAT_EQ` has it: negating both numbers
does not change their distance, and numbers of opposite sign are as far apart as their positions add up to. -/
theorem c110_ordinal_neg (p : Nat) (e : ℤ) (x : ℚ) : ordinal p e (-x) = -ordinal p e x := by
  rcases lt_trichotomy x 0 with h | h | h
  · rw [ordinal, ordinal, if_pos (by linarith), if_neg (by linarith), if_pos h, neg_neg]
  · subst h
    simp [ordinal]
  · rw [ordinal, ordinal, if_neg (by linarith), if_pos (by linarith), if_pos h, neg_neg]

/-- `EXPECT_FLOAT_EQ` accepts equal numbers and `FloatLE` accepts a smaller or equal one: what C99 assumes of them. -/
theorem c110_comparisons (a b : F32) : floatEq a a = true ∧ (a ≤ b → floatLe a b = true) := by
  have hr : ∀ x : F32, floatEq x x = true := fun x => by
    unfold floatEq
    rw [sub_self, abs_zero]
    exact decide_eq_true (by norm_num)
  refine ⟨hr a, fun h => ?_⟩
  unfold floatLe
  rcases h.lt_or_eq with h | rfl
  · rw [decide_eq_true h, Bool.true_or]
  · rw [hr, Bool.or_true]

/-- C110: the box part of `KdTreeTest.QuerySo2Knn4` passes for all points, boxes and splitters, in any arithmetic. -/
theorem c110_so2_box {α : Type} [LinearOrder α] [Zero α] [One α] [Add α] [Sub α] [Mul α] [Neg α] {N : Num α}
    {pts : Nat → Pt α 1} {n : Nat} {o : BuildOpts α 1} {fuel : Nat} {T : KdTree α 1 (Branch2 α 1)}
    (h : KdTree.make (topologicalTag α 1) (metricSO2 α) N pts n o fuel = .ok T)
    (hb : BoundsContain pts n o.bounds) (mn mx : Pt α 1) (prior : List Nat) :
    testBox n (fun i => (⟨mn, mx⟩ : Box α 1).topContainsPt (metricSO2 α).space (pts i)) (T.searchBox mn mx prior) =
      .ok true := by
  have := c09_box h hb mn mx prior
  rw [c99_box_partial _ _ _ this.1]
  exact ⟨this.1, fun i => (this.2 i).trans (and_congr_right fun _ => (topContainsPt_iff_inTopBox _ _ _ _).symm)⟩

/-- C110: the nearest neighbour part of `KdTreeTest.QuerySo2Knn4` passes for all points of the unit circle, in exact
arithmetic. -/
theorem c110_so2_knn {α : Type} [Field α] [LinearOrder α] [IsStrictOrderedRing α] {N : Num α} {pts : Nat → Pt α 1}
    {n : Nat} {o : BuildOpts α 1} {fuel : Nat} {T : KdTree α 1 (Branch2 α 1)} (A : StdNth (Neighbor α))
    (S : StdSort (Neighbor α)) (floatEq floatLe : α → α → Bool) (hrefl : ∀ a, floatEq a a = true)
    (hle : ∀ a b, a ≤ b → floatLe a b = true)
    (h : KdTree.make (topologicalTag α 1) (metricSO2 α) N pts n o fuel = .ok T)
    (hR : Representable N pts n o) (hn : 0 < n) (q : Pt α 1) (hc : CircleOk (fun _ => .s1) pts n o q)
    (hbig : ∀ i < n, Spec.circle (q 0) (pts i 0) < N.big) (k : Nat) (hk : 0 < k) (e : α) (he : 1 ≤ e)
    (prior prior' : List (Neighbor α)) :
    ∃ exact apprx, T.searchKnn q k prior = .ok exact ∧ T.searchKnnApprox q k e prior' = .ok apprx ∧
      testKnn A S floatEq floatLe n k (fun i => Spec.circle (q 0) (pts i 0)) exact apprx = .ok true := by
  obtain ⟨x, h1, h2, -⟩ := c10_knn_so2 h hR hn q hc hbig k hk prior
  obtain ⟨y, h3, h4⟩ := c64_knn_approx_so2 h hR hn hc e he hbig k hk prior'
  exact ⟨x, y, h1, h3, c99_knn_right A S floatEq floatLe hrefl hle k hk hn e he x y h2 h4⟩

/-- Six angles, on a tree with one point in each leaf: the hypotheses of the two theorems hold with the query 1 and the
wrapped box of the test. -/
example :
    let pts : Nat → Pt ℚ 1 := fun i _ => (i : ℚ) / 6
    ∃ T, KdTree.make (topologicalTag ℚ 1) (metricSO2 ℚ) Ref.ratNum pts 6 (Ref.optsSliding ℚ 1) 20 = .ok T ∧
      testBox 6 (fun i => (⟨![19/20], ![1/20]⟩ : Box ℚ 1).topContainsPt (metricSO2 ℚ).space (pts i))
        (T.searchBox ![19/20] ![1/20] []) = .ok true ∧ T.searchBox ![19/20] ![1/20] [] = [0] ∧
      ∃ exact apprx, T.searchKnn ![1] 3 [] = .ok exact ∧ T.searchKnnApprox ![1] 3 (3/2) [] = .ok apprx ∧
        testKnn (nthBySort _) (Ref.sorter _) (fun a b => decide (a = b)) (fun a b => decide (a ≤ b)) 6 3
          (fun i => Spec.circle 1 (pts i 0)) exact apprx = .ok true := by
  intro pts
  obtain ⟨T, h1, h2⟩ := Outcome.exists_of_check
    (x := KdTree.make (topologicalTag ℚ 1) (metricSO2 ℚ) Ref.ratNum pts 6 (Ref.optsSliding ℚ 1) 20)
    (p := fun T => decide (T.searchBox ![19/20] ![1/20] [] = [0])) (by decide +kernel)
  have hR : Representable Ref.ratNum pts 6 (Ref.optsSliding ℚ 1) :=
    ⟨by decide +kernel, by unfold InRange; decide +kernel, trivial, by simp [Ref.optsSliding]⟩
  refine ⟨T, h1, c110_so2_box h1 trivial _ _ [], of_decide_eq_true h2, ?_⟩
  exact c110_so2_knn _ _ _ _ (fun a => by simp) (fun a b hab => by simpa using hab) h1 hR (by omega) ![1]
    ⟨by decide +kernel, by decide +kernel, by simp [Ref.optsSliding]⟩ (by decide +kernel) 3 (by omega) (3/2)
    (by norm_num) [] []

end Random

end Pico.Props
