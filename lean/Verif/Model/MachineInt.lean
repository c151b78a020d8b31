import Verif.Model.Basic
import Mathlib.Algebra.Order.Ring.Int
import Mathlib.Tactic.Positivity

/-!
# Integers of bounded size as scalar type

`scalar_type` (space_traits.hpp) may be a signed integer type.  Overflow is undefined behaviour in C++; in the
model the value of an operation that overflows is given by an arbitrary function `norm`, so that whatever is
proved does not depend on it (wrapping and saturating arithmetic are instances).
-/

namespace Pico

/-- A signed integer type with the values `lo, ..., hi`; `norm z` is the value of an operation with the
mathematical result `z`. -/
structure MachineInt where
  lo : ℤ
  hi : ℤ
  norm : ℤ → ℤ
  lo_le : lo ≤ 0
  le_hi : 0 ≤ hi
  mem : ∀ z, lo ≤ norm z ∧ norm z ≤ hi
  exact : ∀ z, lo ≤ z → z ≤ hi → norm z = z

/-- The values of the type. -/
def MachineInt.F (I : MachineInt) : Type := { z : ℤ // I.lo ≤ z ∧ z ≤ I.hi }

namespace MachineInt
variable (I : MachineInt)

/-- The value of an operation. -/
def ofInt (z : ℤ) : I.F := ⟨I.norm z, I.mem z⟩

instance : LinearOrder I.F := inferInstanceAs (LinearOrder { z : ℤ // I.lo ≤ z ∧ z ≤ I.hi })
instance : Zero I.F := ⟨⟨0, I.lo_le, I.le_hi⟩⟩
instance : Add I.F := ⟨fun a b => I.ofInt (a.1 + b.1)⟩
instance : Sub I.F := ⟨fun a b => I.ofInt (a.1 - b.1)⟩
instance : Mul I.F := ⟨fun a b => I.ofInt (a.1 * b.1)⟩
instance : Neg I.F := ⟨fun a => I.ofInt (-a.1)⟩

/-- `scalar_type(1.0)` (search_visitor.hpp:173, 216, 265). -/
instance : One I.F := ⟨I.ofInt 1⟩

/-- Integer division truncates.  Division by zero is undefined behaviour in C++; the value here stands for nothing and
no theorem uses it. -/
instance : Div I.F := ⟨fun a b => I.ofInt (a.1.tdiv b.1)⟩

/-- `numeric_limits` and halving (kd_tree_builder.hpp:204, 240):
`x * scalar_type(0.5)` is zero, `x / 2` truncates. -/
def num : Num I.F where
  low := ⟨I.lo, le_refl _, I.lo_le.trans I.le_hi⟩
  big := ⟨I.hi, I.lo_le.trans I.le_hi, le_refl _⟩
  mulHalf _ := 0
  divTwo x := I.ofInt (x.1.tdiv 2)

end MachineInt

/-- Wrapping signed integers of `w` bits (`w = 32` for `int`). -/
def wrapping (w : Nat) (hw : 1 ≤ w) : MachineInt where
  lo := -2 ^ (w - 1)
  hi := 2 ^ (w - 1) - 1
  norm z := (z + 2 ^ (w - 1)) % 2 ^ w - 2 ^ (w - 1)
  lo_le := by have : (0 : ℤ) < 2 ^ (w - 1) := by positivity
              omega
  le_hi := by have : (0 : ℤ) < 2 ^ (w - 1) := by positivity
              omega
  mem z := by
    have e : (2 : ℤ) ^ w = 2 * 2 ^ (w - 1) := by rw [← pow_succ', Nat.sub_add_cancel hw]
    have h0 : (0 : ℤ) < 2 ^ w := by positivity
    have h1 := Int.emod_nonneg (z + 2 ^ (w - 1)) h0.ne'
    have h2 := Int.emod_lt_of_pos (z + 2 ^ (w - 1)) h0
    omega
  exact z h1 h2 := by
    have e : (2 : ℤ) ^ w = 2 * 2 ^ (w - 1) := by rw [← pow_succ', Nat.sub_add_cancel hw]
    rw [Int.emod_eq_of_lt (by omega) (by omega)]
    omega

end Pico
