import Verif.Model.DArray
import Verif.SpecPython
import Mathlib.Tactic.Ring
import Mathlib.Tactic.Linarith
import Mathlib.Data.List.Pairwise

/-!
# Indexing and slicing in 64-bit arithmetic
-/

namespace Pico

open Spec

section
variable {τ : Type}

theorem getitemIndex_eq {n : Nat} (hn : n < 2 ^ 63) {i : Int} (h1 : -2 ^ 63 ≤ i) :
    getitemIndex n i = if i < 0 then i + n else i := by
  unfold getitemIndex
  split
  · unfold toS64 toU64
    have : (i % 2 ^ 64 + (n : Int)) % 2 ^ 64 = (i + n) % 2 ^ 64 := Int.emod_add_emod _ _ _
    rw [this]
    split <;> omega
  · rfl

theorem toU64_of_range {x : Int} (h1 : 0 ≤ x) (h2 : x < 2 ^ 64) : toU64 x = x := by
  unfold toU64
  omega

theorem toU64_add_toU64 (x y : Int) : toU64 (x + toU64 y) = toU64 (x + y) := by
  unfold toU64
  exact Int.add_emod_emod _ _ _

theorem toU64_toU64_add (x y : Int) : toU64 (toU64 x + y) = toU64 (x + y) := by
  unfold toU64
  exact Int.emod_add_emod _ _ _

theorem readAt_of_range {a : List τ} {x : Int} (h1 : 0 ≤ x) (h2 : x < a.length) :
    readAt a x = some (a[x.toNat]'(by omega)) := by
  unfold readAt
  rw [if_pos h1, List.getElem?_eq_getElem (by omega)]

/-- The positions a slice visits. -/
def positions (start step : Int) (count : Nat) : List Int :=
  (List.range count).map fun j : Nat => start + j * step

theorem positions_succ (start step : Int) (count : Nat) :
    positions start step (count + 1) = start :: positions (start + step) step count := by
  simp only [positions, List.range_succ_eq_map, List.map_cons, List.map_map]
  congr 1
  · simp
  · refine List.map_congr_left fun j _ => ?_
    simp only [Function.comp_apply]
    push_cast
    ring

theorem copyLoop_ok (a : List τ) (hn : a.length < 2 ^ 63) (step : Int) (count : Nat) (start : Int)
    (h : ∀ x ∈ positions start step count, 0 ≤ x ∧ x < a.length) :
    ∃ out, copyLoop a (toU64 step) count (toU64 start) = .ok out ∧
      List.Forall₂ (fun x y => readAt a x = some y) (positions start step count) out := by
  induction count generalizing start with
  | zero => exact ⟨[], rfl, .nil⟩
  | succ count ih =>
    rw [positions_succ] at h ⊢
    obtain ⟨h1, h2⟩ := h start (by simp)
    obtain ⟨out, ho, hf⟩ := ih (start + step) fun x hx => h x (List.mem_cons_of_mem _ hx)
    have hs : toU64 start = start := toU64_of_range h1 (by omega)
    have hr := readAt_of_range h1 h2
    refine ⟨_ :: out, ?_, .cons hr hf⟩
    unfold copyLoop
    rw [hs, hr]
    simp only [toU64_add_toU64, ho, Call.bind]

theorem mem_positions {start step : Int} {count : Nat} {x : Int} :
    x ∈ positions start step count ↔ ∃ j : Nat, j < count ∧ x = start + j * step := by
  simp only [positions, List.mem_map, List.mem_range]
  constructor
  · rintro ⟨j, h, rfl⟩; exact ⟨j, h, rfl⟩
  · rintro ⟨j, h, rfl⟩; exact ⟨j, h, rfl⟩

theorem positions_sorted_pos {start step : Int} (hs : 0 < step) (count : Nat) :
    (positions start step count).Pairwise (· < ·) := by
  unfold positions
  rw [List.pairwise_map]
  refine List.pairwise_lt_range.imp fun {a b} hab => ?_
  have : (a : Int) * step < b * step := mul_lt_mul_of_pos_right (by exact_mod_cast hab) hs
  linarith

theorem positions_sorted_neg {start step : Int} (hs : step < 0) (count : Nat) :
    (positions start step count).Pairwise (· > ·) := by
  unfold positions
  rw [List.pairwise_map]
  refine List.pairwise_lt_range.imp fun {a b} hab => ?_
  have : (b : Int) * step < a * step := mul_lt_mul_of_neg_right (by exact_mod_cast hab) hs
  show start + b * step < start + a * step
  linarith

/-- The positions for an increasing slice. -/
theorem mem_positions_pos {start stop step x : Int} (hs : 0 < step) :
    x ∈ positions start step (if start < stop then ((stop - start - 1) / step + 1).toNat else 0) ↔
      start ≤ x ∧ x < stop ∧ step ∣ x - start := by
  rw [mem_positions]
  constructor
  · rintro ⟨j, hj, rfl⟩
    split at hj
    · have h1 : (j : Int) ≤ (stop - start - 1) / step := by omega
      have h2 := (Int.le_ediv_iff_mul_le hs).1 h1
      have h3 : 0 ≤ (j : Int) * step := mul_nonneg (by omega) hs.le
      refine ⟨by linarith, by linarith, ?_⟩
      rw [add_sub_cancel_left]
      exact Dvd.intro_left _ rfl
    · omega
  · rintro ⟨h1, h2, c, hc⟩
    have hc0 : 0 ≤ c := by
      by_contra hneg
      have : step * c ≤ step * (-1) := mul_le_mul_of_nonneg_left (by omega) hs.le
      linarith
    refine ⟨c.toNat, ?_, ?_⟩
    · rw [if_pos (by omega)]
      have h3 : c * step ≤ stop - start - 1 := by rw [mul_comm]; linarith
      have h4 := (Int.le_ediv_iff_mul_le hs).2 h3
      omega
    · rw [Int.toNat_of_nonneg hc0]
      linarith [mul_comm c step]

/-- The positions for a decreasing slice. -/
theorem mem_positions_neg {start stop step x : Int} (hs : step < 0) :
    x ∈ positions start step (if stop < start then ((start - stop - 1) / (-step) + 1).toNat else 0) ↔
      x ≤ start ∧ stop < x ∧ step ∣ x - start := by
  have hs' : 0 < -step := by omega
  rw [mem_positions]
  constructor
  · rintro ⟨j, hj, rfl⟩
    split at hj
    · have h1 : (j : Int) ≤ (start - stop - 1) / (-step) := by omega
      have h2 := (Int.le_ediv_iff_mul_le hs').1 h1
      have h3 : 0 ≤ (j : Int) * (-step) := mul_nonneg (by omega) hs'.le
      have h4 : (j : Int) * (-step) = -(j * step) := by ring
      refine ⟨by linarith, by linarith, ?_⟩
      rw [add_sub_cancel_left]
      exact Dvd.intro_left _ rfl
    · omega
  · rintro ⟨h1, h2, c, hc⟩
    have hc0 : 0 ≤ c := by
      by_contra hneg
      have : (-step) * c ≤ (-step) * (-1) := mul_le_mul_of_nonneg_left (by omega) hs'.le
      linarith
    refine ⟨c.toNat, ?_, ?_⟩
    · rw [if_pos (by
        have : 0 ≤ c * (-step) := mul_nonneg hc0 hs'.le
        linarith [mul_comm c step])]
      have h3 : c * (-step) ≤ start - stop - 1 := by
        have : c * (-step) = -(step * c) := by ring
        linarith
      have h4 := (Int.le_ediv_iff_mul_le hs').2 h3
      omega
    · rw [Int.toNat_of_nonneg hc0]
      linarith [mul_comm c step]

/-- The bounds of CPython's slices, for sequences shorter than 2^63. -/
theorem sliceBound_start {n : Nat} (hn : n < 2 ^ 63) {step : Int} {start : Option Int} :
    sliceBound n step ((start.map sliceClip).getD (if step < 0 then 2 ^ 63 - 1 else 0)) =
      sliceStart n step start := by
  cases start with
  | none =>
    simp only [Option.map_none, Option.getD_none, sliceStart, sliceBound]
    split_ifs <;> omega
  | some x =>
    simp only [Option.map_some, Option.getD_some, sliceStart, sliceBound, sliceClip]
    split_ifs <;> omega

theorem sliceBound_stop_pos {n : Nat} (hn : n < 2 ^ 63) {step : Int} (hs : ¬ step < 0)
    {stop : Option Int} {x : Int} (h1 : 0 ≤ x) (h2 : x < n) :
    x < sliceBound n step ((stop.map sliceClip).getD (if step < 0 then -2 ^ 63 else 2 ^ 63 - 1)) ↔
      beforeStop n step x stop := by
  cases stop with
  | none =>
    simp only [Option.map_none, Option.getD_none, beforeStop, sliceBound, iff_true, hs, if_false]
    split_ifs <;> omega
  | some y =>
    simp only [Option.map_some, Option.getD_some, beforeStop, sliceBound, sliceClip, hs, if_false]
    split_ifs <;> omega

theorem sliceBound_stop_neg {n : Nat} (hn : n < 2 ^ 63) {step : Int} (hs : step < 0)
    {stop : Option Int} {x : Int} (h1 : 0 ≤ x) (h2 : x < n) :
    sliceBound n step ((stop.map sliceClip).getD (if step < 0 then -2 ^ 63 else 2 ^ 63 - 1)) < x ↔
      beforeStop n step x stop := by
  cases stop with
  | none =>
    simp only [Option.map_none, Option.getD_none, beforeStop, sliceBound, iff_true, hs]
    split_ifs <;> omega
  | some y =>
    simp only [Option.map_some, Option.getD_some, beforeStop, sliceBound, sliceClip, hs, if_true]
    split_ifs <;> omega

theorem sliceBound_range {n : Nat} {step x : Int} :
    (step < 0 → -1 ≤ sliceBound n step x ∧ sliceBound n step x < n) ∧
    (¬ step < 0 → 0 ≤ sliceBound n step x ∧ sliceBound n step x ≤ n) := by
  unfold sliceBound
  constructor <;> intro h <;> split_ifs <;> omega

/-- The effective step of CPython. -/
def effectiveStep (step : Int) : Int := max (sliceClip step) (-(2 ^ 63 - 1))

theorem effectiveStep_neg {step : Int} : effectiveStep step < 0 ↔ step < 0 := by
  unfold effectiveStep sliceClip
  omega

theorem dvd_effectiveStep {step x : Int} (h1 : -(2 ^ 63 - 1) < x) (h2 : x < 2 ^ 63 - 1) :
    effectiveStep step ∣ x ↔ step ∣ x := by
  by_cases hs : -(2 ^ 63 - 1) ≤ step ∧ step ≤ 2 ^ 63 - 1
  · have : effectiveStep step = step := by unfold effectiveStep sliceClip; omega
    rw [this]
  · have h3 : ∀ s : Int, 2 ^ 63 - 1 ≤ s.natAbs → (s ∣ x ↔ x = 0) := fun s hs' =>
      ⟨fun h => Int.eq_zero_of_dvd_of_natAbs_lt_natAbs h (by omega), fun h => h ▸ dvd_zero s⟩
    rw [h3 _ (by unfold effectiveStep sliceClip; omega), h3 _ (by omega)]

end

end Pico
