import Verif.Proof.Topo

/-!
# C52, C53: segments of the line and the circle

Points of the circle are the numbers of `[0, 1]`.  A segment with `max < min` runs through 1 = 0.
-/

set_option linter.unusedSectionVars false

namespace Pico.Props

open Pico Spec

section
variable {α : Type} [Field α] [LinearOrder α] [IsStrictOrderedRing α]

/-- The points of a segment of the circle (specification). -/
def arc (mn mx : α) : Set α :=
  {y | 0 ≤ y ∧ y ≤ 1 ∧ (mn ≤ mx → mn ≤ y ∧ y ≤ mx) ∧ (mx < mn → mn ≤ y ∨ y ≤ mx)}

/-- C52: `segment_r1::distance` is the distance to the nearest point of the segment. -/
theorem c52_segment_r1 (mn mx x : α) (h : mn ≤ mx) :
    (∀ y, mn ≤ y → y ≤ mx → Segment.r1Distance ⟨mn, mx⟩ x ≤ |x - y|) ∧
    ∃ y, mn ≤ y ∧ y ≤ mx ∧ Segment.r1Distance ⟨mn, mx⟩ x = |x - y| := by
  refine ⟨fun y h1 h2 => (segment_r1_le ⟨h1, h2⟩).2, ?_⟩
  unfold Segment.r1Distance
  dsimp only
  split_ifs with h1 h2
  · exact ⟨mn, le_rfl, h, by rw [abs_of_neg (by linarith)]; ring⟩
  · exact ⟨mx, h, le_rfl, by rw [abs_of_pos (by linarith)]⟩
  · exact ⟨x, not_lt.1 h1, not_lt.1 h2, by simp⟩

/-- C52: `segment_s1::contains(x)` for ordinary and wrapped segments. -/
theorem c52_contains_s1 (mn mx x : α) (hx : 0 ≤ x ∧ x ≤ 1) :
    Segment.s1Contains ⟨mn, mx⟩ x = true ↔ x ∈ arc mn mx := by
  unfold Segment.s1Contains Segment.s1Linear arc
  by_cases h : mn ≤ mx
  · simp [h, hx.1, hx.2]
  · have h' : mx < mn := not_le.1 h
    simp [h, h', hx.1, hx.2]

/-- C52: `segment_s1::distance` is the distance along the circle to the nearest point of the segment, for
ordinary and for wrapped segments. -/
theorem c52_segment_s1 (mn mx x : α) (hmn : 0 ≤ mn ∧ mn ≤ 1) (hmx : 0 ≤ mx ∧ mx ≤ 1)
    (hx : 0 ≤ x ∧ x ≤ 1) :
    (∀ y ∈ arc mn mx, Segment.s1Distance ⟨mn, mx⟩ x ≤ circle x y) ∧
    ∃ y ∈ arc mn mx, Segment.s1Distance ⟨mn, mx⟩ x = circle x y := by
  have hself : (0 : α) = circle x x := by simp [circle]
  have hmn' : mn ∈ arc mn mx := ⟨hmn.1, hmn.2, fun h => ⟨le_rfl, h⟩, fun _ => .inl le_rfl⟩
  have hmx' : mx ∈ arc mn mx := ⟨hmx.1, hmx.2, fun h => ⟨h, le_rfl⟩, fun _ => .inr le_rfl⟩
  by_cases h : mn ≤ mx
  · refine ⟨fun y hy => (segment_s1_le hmn.1 hmx.2 hx (hy.2.2.1 h)).2, ?_⟩
    unfold Segment.s1Distance Segment.s1Linear Segment.s1DistanceMinMax
    simp only [h, decide_true, if_true, Bool.or_eq_true, decide_eq_true_eq]
    split_ifs with hc
    · rw [stdMin_eq, s1Distance_eq, s1Distance_eq]
      rcases min_choice (circle x mn) (circle x mx) with e | e
      · exact ⟨mn, hmn', e⟩
      · exact ⟨mx, hmx', e⟩
    · rw [not_or, not_lt, not_lt] at hc
      exact ⟨x, ⟨hx.1, hx.2, fun _ => hc, fun _ => .inl hc.1⟩, hself⟩
  · have h' : mx < mn := not_le.1 h
    unfold Segment.s1Distance Segment.s1Linear Segment.s1DistanceMaxMin
    simp only [h, decide_false, Bool.false_eq_true, if_false, Bool.or_eq_true, decide_eq_true_eq]
    split_ifs with hc
    · refine ⟨fun y hy => circle_nonneg hx ⟨hy.1, hy.2.1⟩, x, ⟨hx.1, hx.2, fun hl => absurd hl h,
        fun _ => ?_⟩, hself⟩
      rcases hc with hc | hc
      · exact .inr hc.le
      · exact .inl hc.le
    · rw [not_or, not_lt, not_lt] at hc
      rw [stdMin_eq, s1Distance_eq, s1Distance_eq]
      refine ⟨fun y hy => ?_, ?_⟩
      · unfold circle
        rcases hy.2.2.2 h' with hy1 | hy1
        · rw [abs_of_nonpos (by linarith [hc.2] : x - mn ≤ 0),
            abs_of_nonneg (by linarith [hc.1] : 0 ≤ x - mx),
            abs_of_nonpos (by linarith [hc.2] : x - y ≤ 0)]
          refine le_min ?_ ?_
          · exact (min_le_left _ _).trans ((min_le_left _ _).trans (by linarith))
          · exact (min_le_right _ _).trans ((min_le_left _ _).trans (by linarith [hmx.1, hy.2.1]))
        · rw [abs_of_nonpos (by linarith [hc.2] : x - mn ≤ 0),
            abs_of_nonneg (by linarith [hc.1] : 0 ≤ x - mx),
            abs_of_nonneg (by linarith [hc.1] : 0 ≤ x - y)]
          refine le_min ?_ ?_
          · exact (min_le_right _ _).trans ((min_le_left _ _).trans (by linarith))
          · exact (min_le_left _ _).trans ((min_le_left _ _).trans (by linarith [hmn.2, hy.1]))
      · rcases min_choice (circle x mn) (circle x mx) with e | e
        · exact ⟨mn, hmn', e⟩
        · exact ⟨mx, hmx', e⟩

/-- C53: `segment_r1::contains(segment)` is inclusion of the sets of points. -/
theorem c53_contains_r1 (mn mx a b : α) (hab : a ≤ b) :
    Segment.r1ContainsSeg ⟨mn, mx⟩ ⟨a, b⟩ = true ↔ Set.Icc a b ⊆ Set.Icc mn mx := by
  unfold Segment.r1ContainsSeg
  simp only [Bool.and_eq_true, decide_eq_true_eq]
  exact (Set.Icc_subset_Icc_iff hab).symm

/-- C53: `segment_s1::contains(segment_r1)` is inclusion of the sets of points, for ordinary and for
wrapped segments. -/
theorem c53_contains_s1 (mn mx a b : α) (h0 : 0 ≤ a) (hab : a ≤ b) (h1 : b ≤ 1) :
    Segment.s1ContainsSeg ⟨mn, mx⟩ ⟨a, b⟩ = true ↔ Set.Icc a b ⊆ arc mn mx := by
  unfold Segment.s1ContainsSeg Segment.s1Linear
  by_cases h : mn ≤ mx
  · simp only [h, decide_true, if_true, Bool.and_eq_true, decide_eq_true_eq]
    constructor
    · intro hc y hy
      exact ⟨h0.trans hy.1, hy.2.trans h1, fun _ => ⟨hc.1.trans hy.1, hy.2.trans hc.2⟩,
        fun _ => .inl (hc.1.trans hy.1)⟩
    · intro hs
      exact ⟨((hs ⟨le_rfl, hab⟩).2.2.1 h).1, ((hs ⟨hab, le_rfl⟩).2.2.1 h).2⟩
  · have h' : mx < mn := not_le.1 h
    simp only [h, decide_false, Bool.false_eq_true, if_false, Bool.or_eq_true, decide_eq_true_eq, ge_iff_le]
    constructor
    · intro hc y hy
      refine ⟨h0.trans hy.1, hy.2.trans h1, fun hl => absurd hl h, fun _ => ?_⟩
      rcases hc with hc | hc
      · exact .inl (hc.trans hy.1)
      · exact .inr (hy.2.trans hc)
    · intro hs
      by_contra hc
      rw [not_or, not_le, not_le] at hc
      -- a point of the gap between `mx` and `mn`
      have hgap : ∃ y, a ≤ y ∧ y ≤ b ∧ mx < y ∧ y < mn := by
        by_cases c1 : mx < a
        · exact ⟨a, le_rfl, hab, c1, hc.1⟩
        · by_cases c2 : b < mn
          · exact ⟨b, hab, le_rfl, hc.2, c2⟩
          · have c1 := not_lt.1 c1
            have c2 := not_lt.1 c2
            exact ⟨(mx + mn) / 2, by linarith, by linarith, by linarith, by linarith⟩
      obtain ⟨y, y1, y2, y3, y4⟩ := hgap
      rcases (hs ⟨y1, y2⟩).2.2.2 h' with hy | hy
      · exact absurd hy (not_le.2 y4)
      · exact absurd hy (not_le.2 y3)

end

/-- Hypotheses of `c52_segment_s1` with a wrapped segment and a query outside of it. -/
example : Segment.s1Distance ⟨(3 / 4 : ℚ), 1 / 8⟩ (1 / 4) = 1 / 8 ∧ (1 / 8 : ℚ) < 3 / 4 := by
  decide +kernel

/-- Hypotheses of `c53_contains_s1`, wrapped: one segment inside, one not. -/
example : Segment.s1ContainsSeg ⟨(3 / 4 : ℚ), 1 / 8⟩ ⟨0, 1 / 16⟩ = true ∧
    Segment.s1ContainsSeg ⟨(3 / 4 : ℚ), 1 / 8⟩ ⟨0, 1⟩ = false := by
  decide +kernel

end Pico.Props
