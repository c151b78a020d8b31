import Verif.Model.Box
import Verif.Model.Builder
import Mathlib.Tactic.Linarith
import Mathlib.Algebra.Order.Field.Basic

/-! # Lemmas about boxes -/

set_option linter.unusedSectionVars false

namespace Pico

/-- Closed box membership. -/
def Box.Mem {α : Type} [LinearOrder α] {d : Nat} (b : Box α d) (x : Pt α d) : Prop :=
  ∀ j, b.min j ≤ x j ∧ x j ≤ b.max j

section
variable {α : Type} [LinearOrder α] {d : Nat}

theorem Box.containsPt_iff (b : Box α d) (x : Pt α d) : b.containsPt x = true ↔ b.Mem x := by
  simp [Box.containsPt, Box.Mem, List.all_eq_true]

theorem Box.fitPt_min (b : Box α d) (x : Pt α d) (j : Fin d) :
    (b.fitPt x).min j = Min.min (b.min j) (x j) := by
  simp only [Box.fitPt]
  split_ifs with h
  · exact (min_eq_right h.le).symm
  · exact (min_eq_left (not_lt.mp h)).symm

theorem Box.fitPt_max (b : Box α d) (x : Pt α d) (j : Fin d) :
    (b.fitPt x).max j = Max.max (b.max j) (x j) := by
  simp only [Box.fitPt]
  split_ifs with h
  · exact (max_eq_right (le_of_lt h)).symm
  · exact (max_eq_left (not_lt.mp h)).symm

theorem Box.fitBox_min (b x : Box α d) (j : Fin d) :
    (b.fitBox x).min j = Min.min (b.min j) (x.min j) := by
  simp only [Box.fitBox]
  split_ifs with h
  · exact (min_eq_right h.le).symm
  · exact (min_eq_left (not_lt.mp h)).symm

theorem Box.fitBox_max (b x : Box α d) (j : Fin d) :
    (b.fitBox x).max j = Max.max (b.max j) (x.max j) := by
  simp only [Box.fitBox]
  split_ifs with h
  · exact (max_eq_right (le_of_lt h)).symm
  · exact (max_eq_left (not_lt.mp h)).symm

theorem Box.mem_fitBox_left {b x : Box α d} {p : Pt α d} (h : b.Mem p) : (b.fitBox x).Mem p := by
  intro j
  rw [Box.fitBox_min, Box.fitBox_max]
  exact ⟨(min_le_left _ _).trans (h j).1, (h j).2.trans (le_max_left _ _)⟩

theorem Box.mem_fitBox_right {b x : Box α d} {p : Pt α d} (h : x.Mem p) : (b.fitBox x).Mem p := by
  intro j
  rw [Box.fitBox_min, Box.fitBox_max]
  exact ⟨(min_le_right _ _).trans (h j).1, (h j).2.trans (le_max_right _ _)⟩

/-- `min` after fitting a list of points. -/
theorem foldl_fitPt_min (pts : Nat → Pt α d) (l : List Nat) (b : Box α d) (j : Fin d) (v : α) :
    v ≤ (l.foldl (fun b i => b.fitPt (pts i)) b).min j ↔ v ≤ b.min j ∧ ∀ i ∈ l, v ≤ pts i j := by
  induction l generalizing b with
  | nil => simp
  | cons a l ih =>
    rw [List.foldl_cons, ih, Box.fitPt_min, le_min_iff, List.forall_mem_cons, and_assoc]

theorem foldl_fitPt_max (pts : Nat → Pt α d) (l : List Nat) (b : Box α d) (j : Fin d) (v : α) :
    (l.foldl (fun b i => b.fitPt (pts i)) b).max j ≤ v ↔ b.max j ≤ v ∧ ∀ i ∈ l, pts i j ≤ v := by
  induction l generalizing b with
  | nil => simp
  | cons a l ih =>
    rw [List.foldl_cons, ih, Box.fitPt_max, max_le_iff, List.forall_mem_cons, and_assoc]

theorem mem_foldl_fitPt (pts : Nat → Pt α d) (l : List Nat) (b : Box α d) :
    ∀ i ∈ l, (l.foldl (fun b i => b.fitPt (pts i)) b).Mem (pts i) := by
  intro i hi j
  exact ⟨((foldl_fitPt_min pts l b j _).1 le_rfl).2 i hi, ((foldl_fitPt_max pts l b j _).1 le_rfl).2 i hi⟩

theorem computeBoundingBox_mem (N : Num α) (pts : Nat → Pt α d) (seg : List Nat) :
    ∀ i ∈ seg, (computeBoundingBox N pts seg).Mem (pts i) :=
  mem_foldl_fitPt pts seg _

theorem boxFromBounds_fromSpace_mem (N : Num α) (pts : Nat → Pt α d) (n : Nat) :
    ∀ i < n, (boxFromBounds N pts n .fromSpace).Mem (pts i) := by
  intro i hi
  exact mem_foldl_fitPt pts (List.range n) _ i (List.mem_range.2 hi)

/-- With given bounds, the root box contains everything between the two given corner points. -/
theorem boxFromBounds_given_min (N : Num α) (pts : Nat → Pt α d) (n : Nat) (mn mx : Pt α d)
    (j : Fin d) : (boxFromBounds N pts n (.given mn mx)).min j = min (min N.big (mn j)) (mx j) := by
  simp [boxFromBounds, Box.fitPt_min, Box.inverseMax]

theorem boxFromBounds_given_max (N : Num α) (pts : Nat → Pt α d) (n : Nat) (mn mx : Pt α d)
    (j : Fin d) : (boxFromBounds N pts n (.given mn mx)).max j = max (max N.low (mn j)) (mx j) := by
  simp [boxFromBounds, Box.fitPt_max, Box.inverseMax]

@[simp] theorem Box.setMax_max_self (b : Box α d) (j : Fin d) (v : α) : (b.setMax j v).max j = v := by
  simp [Box.setMax]

@[simp] theorem Box.setMax_min (b : Box α d) (j : Fin d) (v : α) : (b.setMax j v).min = b.min := rfl

@[simp] theorem Box.setMin_max (b : Box α d) (j : Fin d) (v : α) : (b.setMin j v).max = b.max := rfl

@[simp] theorem Box.setMin_min_self (b : Box α d) (j : Fin d) (v : α) : (b.setMin j v).min j = v := by
  simp [Box.setMin]

theorem Box.setMax_max_ne (b : Box α d) {i j : Fin d} (v : α) (h : i ≠ j) :
    (b.setMax j v).max i = b.max i := by simp [Box.setMax, h]

theorem Box.setMin_min_ne (b : Box α d) {i j : Fin d} (v : α) (h : i ≠ j) :
    (b.setMin j v).min i = b.min i := by simp [Box.setMin, h]

end

end Pico
