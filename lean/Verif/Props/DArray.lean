import Verif.Proof.DArray

/-!
# C36: indexing and slicing of a DArray
-/

namespace Pico.Props

open Pico Spec

section
variable {τ : Type} (a : List τ) (hn : a.length < 2 ^ 63)
include hn

/-- C36 (index): `a[i]` is element `i`, or element `n + i` for negative `i`; any other index raises. -/
theorem c36_index (i : Int) (h1 : -2 ^ 63 ≤ i) (h2 : i < 2 ^ 63) :
    (∀ j : Nat, ∀ h : j < a.length, i = j ∨ i = j - a.length → getitem a i = .ok a[j]) ∧
    (i < -a.length ∨ (a.length : Int) ≤ i → getitem a i = .throws) := by
  have hg := getitemIndex_eq hn h1
  unfold getitem
  constructor
  · intro j hj hi
    have hx : getitemIndex a.length i = j := by rw [hg]; split <;> omega
    rw [hx, toU64_of_range (by omega) (by omega), if_neg (by omega), readAt_of_range (by omega) (by omega)]
    simp
  · intro hi
    have : getitemIndex a.length i < 0 ∨ toU64 (getitemIndex a.length i) ≥ a.length := by
      rw [hg]
      split
      · left; omega
      · right
        rw [toU64_of_range (by omega) (by omega)]
        omega
    rw [if_pos this]

/-- C36 (slice): `a[start:stop:step]` consists of exactly the elements at the positions that the Python
language reference names, in increasing order for positive and decreasing order for negative steps; no
element outside of the array is read although `begin` wraps around. -/
theorem c36_slice (start stop : Option Int) (step : Int) (hs : step ≠ 0) :
    ∃ xs out, getslice a start stop (some step) = .ok out ∧
      List.Forall₂ (fun x y => readAt a x = some y) xs out ∧
      (step < 0 → xs.Pairwise (· > ·)) ∧ (0 < step → xs.Pairwise (· < ·)) ∧
      ∀ x, x ∈ xs ↔ InSlice a.length start stop step x := by
  have hclip : sliceClip step ≠ 0 := by unfold sliceClip; omega
  have hneg := effectiveStep_neg (step := step)
  have hst := sliceBound_start hn (step := effectiveStep step) (start := start)
  have hstart : sliceStart a.length (effectiveStep step) start = sliceStart a.length step start := by
    unfold sliceStart
    simp only [hneg]
  rw [hstart] at hst
  have hbs : ∀ x, beforeStop a.length (effectiveStep step) x stop ↔ beforeStop a.length step x stop := by
    intro x
    unfold beforeStop
    simp only [hneg]
  have hgs : getslice a start stop (some step) =
      copyLoop a (toU64 (effectiveStep step))
        (sliceAdjust a.length ((start.map sliceClip).getD (if effectiveStep step < 0 then 2 ^ 63 - 1 else 0))
          ((stop.map sliceClip).getD (if effectiveStep step < 0 then -2 ^ 63 else 2 ^ 63 - 1))
          (effectiveStep step)).2
        (toU64 (sliceAdjust a.length
          ((start.map sliceClip).getD (if effectiveStep step < 0 then 2 ^ 63 - 1 else 0))
          ((stop.map sliceClip).getD (if effectiveStep step < 0 then -2 ^ 63 else 2 ^ 63 - 1))
          (effectiveStep step)).1) := by
    unfold getslice sliceUnpack
    simp only [Option.getD_some, if_neg hclip, Call.bind]
    rfl
  rw [hgs]
  clear hgs
  set start' := (start.map sliceClip).getD (if effectiveStep step < 0 then 2 ^ 63 - 1 else 0)
  set stop' := (stop.map sliceClip).getD (if effectiveStep step < 0 then -2 ^ 63 else 2 ^ 63 - 1) with hstop'
  have hdvd : ∀ x : Int, 0 ≤ x → x < a.length →
      (effectiveStep step < 0 → x ≤ sliceStart a.length step start) →
      (¬ effectiveStep step < 0 → sliceStart a.length step start ≤ x) →
      (effectiveStep step ∣ x - sliceStart a.length step start ↔
        step ∣ x - sliceStart a.length step start) := by
    intro x h1 h2 h3 h4
    have hr := sliceBound_range (n := a.length) (step := effectiveStep step) (x := start')
    rw [hst] at hr
    by_cases h : effectiveStep step < 0
    · exact dvd_effectiveStep (by have := hr.1 h; have := h3 h; omega) (by have := hr.1 h; have := h3 h; omega)
    · exact dvd_effectiveStep (by have := hr.2 h; have := h4 h; omega) (by have := hr.2 h; have := h4 h; omega)
  by_cases h : effectiveStep step < 0
  · have hmem : ∀ x, x ∈ positions (sliceStart a.length step start) (effectiveStep step)
        (sliceAdjust a.length start' stop' (effectiveStep step)).2 ↔
        InSlice a.length start stop step x := by
      intro x
      have hstep : step < 0 := hneg.1 h
      unfold sliceAdjust
      simp only [h, if_true, hst]
      rw [mem_positions_neg h]
      unfold InSlice
      simp only [hstep, if_true]
      have hr := (sliceBound_range (n := a.length) (step := effectiveStep step) (x := start')).1 h
      have hr' := (sliceBound_range (n := a.length) (step := effectiveStep step) (x := stop')).1 h
      rw [hst] at hr
      constructor
      · rintro ⟨h1, h2, h3⟩
        have hx0 : 0 ≤ x := by omega
        have hxn : x < a.length := by omega
        exact ⟨hx0, hxn, (hdvd x hx0 hxn (fun _ => h1) fun h' => absurd h h').1 h3, h1,
          (hbs x).1 ((sliceBound_stop_neg hn h hx0 hxn).1 h2)⟩
      · rintro ⟨h1, h2, h3, h4, h5⟩
        exact ⟨h4, (sliceBound_stop_neg hn h h1 h2).2 ((hbs x).2 h5), (hdvd x h1 h2 (fun _ => h4) fun h' => absurd h h').2 h3⟩
    have hfst : (sliceAdjust a.length start' stop' (effectiveStep step)).1 =
        sliceStart a.length step start := by
      unfold sliceAdjust
      simp only [h, if_true, hst]
    rw [hfst]
    obtain ⟨out, h1, h2⟩ := copyLoop_ok a hn (effectiveStep step) _ _ fun x hx =>
      ⟨((hmem x).1 hx).1, ((hmem x).1 hx).2.1⟩
    exact ⟨_, out, h1, h2, fun _ => positions_sorted_neg h _, fun h' => absurd (hneg.1 h) (by omega), hmem⟩
  · have hpos : 0 < effectiveStep step := by
      have : effectiveStep step ≠ 0 := by unfold effectiveStep sliceClip; omega
      omega
    have hmem : ∀ x, x ∈ positions (sliceStart a.length step start) (effectiveStep step)
        (sliceAdjust a.length start' stop' (effectiveStep step)).2 ↔
        InSlice a.length start stop step x := by
      intro x
      have hstep : ¬ step < 0 := fun h' => h (hneg.2 h')
      unfold sliceAdjust
      simp only [h, if_false, hst]
      rw [mem_positions_pos hpos]
      unfold InSlice
      simp only [hstep, if_false]
      have hr := (sliceBound_range (n := a.length) (step := effectiveStep step) (x := start')).2 h
      have hr' := (sliceBound_range (n := a.length) (step := effectiveStep step) (x := stop')).2 h
      rw [hst] at hr
      constructor
      · rintro ⟨h1, h2, h3⟩
        have hx0 : 0 ≤ x := by omega
        have hxn : x < a.length := by omega
        exact ⟨hx0, hxn, (hdvd x hx0 hxn (fun h' => absurd h' h) fun _ => h1).1 h3, h1,
          (hbs x).1 ((sliceBound_stop_pos hn h hx0 hxn).1 h2)⟩
      · rintro ⟨h1, h2, h3, h4, h5⟩
        exact ⟨h4, (sliceBound_stop_pos hn h h1 h2).2 ((hbs x).2 h5), (hdvd x h1 h2 (fun h' => absurd h' h) fun _ => h4).2 h3⟩
    have hfst : (sliceAdjust a.length start' stop' (effectiveStep step)).1 =
        sliceStart a.length step start := by
      unfold sliceAdjust
      simp only [h, if_false, hst]
    rw [hfst]
    obtain ⟨out, h1, h2⟩ := copyLoop_ok a hn (effectiveStep step) _ _ fun x hx =>
      ⟨((hmem x).1 hx).1, ((hmem x).1 hx).2.1⟩
    exact ⟨_, out, h1, h2, fun h' => absurd (hneg.2 h') h, fun _ => positions_sorted_pos hpos _, hmem⟩

omit hn in
/-- C36 (slice): a missing step is 1, a step of zero raises. -/
theorem c36_slice_step (start stop : Option Int) :
    getslice a start stop none = getslice a start stop (some 1) ∧
    getslice a start stop (some 0) = .throws := by
  constructor
  · rfl
  · unfold getslice sliceUnpack
    simp [sliceClip, Call.bind]

end

example : getitem [10, 11, 12] (-1) = .ok 12 ∧ getitem [10, 11, 12] (-4) = .throws ∧
    getitem [10, 11, 12] 2 = .ok 12 ∧ getitem [10, 11, 12] 3 = .throws := by decide +kernel

example : getslice [10, 11, 12, 13, 14] none none (some (-2)) = .ok [14, 12, 10] ∧
    getslice [10, 11, 12, 13, 14] (some 1) (some (-1)) none = .ok [11, 12, 13] ∧
    getslice [10, 11, 12, 13, 14] (some 100) (some 1) (some (-1)) = .ok [14, 13, 12] ∧
    getslice [10, 11, 12, 13, 14] (some (-100)) none (some 3) = .ok [10, 13] ∧
    getslice [10, 11, 12, 13, 14] (some 3) (some 1) none = .ok [] := by decide +kernel

end Pico.Props
