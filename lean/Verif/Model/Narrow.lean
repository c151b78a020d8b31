import Verif.Model.MachineInt
import Verif.Model.Search
import Mathlib.Tactic.Ring

/-!
# Scalar types narrower than `int`

`space_traits` may name `std::uint8_t`, `std::uint16_t`, `std::int8_t` or `std::int16_t` as scalar type (core.hpp:26
asks only for an arithmetic type).  C++ promotes the operands of `+`, `-` and `*` to `int`; the result is reduced to
the scalar type where it is stored in a variable of that type or returned as one.

Unlike `Verif.Model.MachineInt`, where every operation yields a value of the scalar type, differences keep their sign
here and the test that chooses the first child is made with `int`s.
-/

namespace Pico

/-- An integer type whose values fit `int`.  `norm` is the conversion to it, modulo a power of two. -/
structure Narrow extends MachineInt where
  lo_ge : -2 ^ 15 ≤ lo
  hi_le : hi ≤ 2 ^ 16 - 1
  modular : ∀ z w, norm (norm z + w) = norm (z + w)

/-- `int`: 32 bits.  What an operation that overflows yields is left open. -/
structure CInt extends MachineInt where
  lo_eq : lo = -2 ^ 31
  hi_eq : hi = 2 ^ 31 - 1

section
variable (I : Narrow) (J : CInt)

/-- `std::abs(x - y)` of promoted operands (distance.hpp:19-21) with the argument `z = x - y`, and `metric_l1` of one
number (metric.hpp:94-97), called with an `int`. -/
def absInt (z : ℤ) : ℤ := J.norm |J.norm z|

/-- `squared(x - y)` (distance.hpp:32-41), instantiated for `int`, and `metric_l2_squared` of one number
(metric.hpp:119-123). -/
def sqInt (z : ℤ) : ℤ := J.norm (J.norm z * J.norm z)

/-- `metric_l1` (`g = absInt`) and `metric_l2_squared` (`g = sqInt`) on promoted operands (metric.hpp:13-52, 78-124):
`op(*begin1, *begin2)` returns the scalar type, and so does each sum `d += ...`, which cannot overflow an `int`. -/
def promotedMetric (g : ℤ → ℤ) (d : Nat) : Metric I.F d where
  dist x y := loopSum fun i => I.ofInt (g ((x i).1 - (y i).1))
  one x := I.ofInt (g x.1)
  space _ := .r1

/-- Choice of the first child in `search_nearest_euclidean` (kd_tree_search.hpp:63-85) on promoted operands: the test
and the differences are `int`s, `new_offset` is a scalar. -/
def pickPromoted {d : Nat} (g : ℤ → ℤ) (q : Pt I.F d) (b : Branch1 I.F d) : Bool × I.F :=
  let v := (q b.splitDim).1
  if J.norm (J.norm (J.norm (b.leftMax.1 + b.rightMin.1) - v) - v) > 0 then
    (true, I.ofInt (g (b.rightMin.1 - v)))
  else (false, I.ofInt (g (b.leftMax.1 - v)))

/-- `euclidean_space_tag` for a scalar type narrower than `int`. -/
def promotedTag (g : ℤ → ℤ) (d : Nat) : SpaceTag I.F d (Branch1 I.F d) :=
  { euclideanTag I.F d with pick := fun _ q b => pickPromoted I J g q b }

end

/-- Unsigned integers of `w` bits, `w ≤ 16` (`std::uint8_t`, `std::uint16_t`). -/
def unsignedNarrow (w : Nat) (hw : w ≤ 16) : Narrow where
  lo := 0
  hi := 2 ^ w - 1
  norm z := z % 2 ^ w
  lo_le := le_refl _
  le_hi := by have : (0 : ℤ) < 2 ^ w := by positivity
              omega
  mem z := by
    have h0 : (0 : ℤ) < 2 ^ w := by positivity
    have h1 := Int.emod_nonneg z h0.ne'
    have h2 := Int.emod_lt_of_pos z h0
    omega
  exact z h1 h2 := Int.emod_eq_of_lt h1 (by omega)
  lo_ge := by norm_num
  hi_le := by
    have : (2 : ℤ) ^ w ≤ 2 ^ 16 := pow_le_pow_right₀ (by norm_num) hw
    omega
  modular z w' := by rw [Int.emod_add_emod]

/-- Signed integers of `w` bits, `w ≤ 16` (`std::int8_t`, `std::int16_t`). -/
def signedNarrow (w : Nat) (h1 : 1 ≤ w) (hw : w ≤ 16) : Narrow where
  toMachineInt := wrapping w h1
  lo_ge := by
    have : (2 : ℤ) ^ (w - 1) ≤ 2 ^ 15 := pow_le_pow_right₀ (by norm_num) (by omega)
    change (-2 ^ 15 : ℤ) ≤ -2 ^ (w - 1)
    omega
  hi_le := by
    have : (2 : ℤ) ^ (w - 1) ≤ 2 ^ 15 := pow_le_pow_right₀ (by norm_num) (by omega)
    change (2 ^ (w - 1) - 1 : ℤ) ≤ _
    omega
  modular z w' := by
    change ((z + 2 ^ (w - 1)) % 2 ^ w - 2 ^ (w - 1) + w' + 2 ^ (w - 1)) % 2 ^ w - 2 ^ (w - 1) =
      (z + w' + 2 ^ (w - 1)) % 2 ^ w - 2 ^ (w - 1)
    rw [show (z + 2 ^ (w - 1)) % 2 ^ w - 2 ^ (w - 1) + w' + 2 ^ (w - 1) = (z + 2 ^ (w - 1)) % 2 ^ w + w' by ring,
      Int.emod_add_emod, show z + 2 ^ (w - 1) + w' = z + w' + 2 ^ (w - 1) by ring]

/-- `int` with arithmetic that wraps around. -/
def wrappingInt : CInt where
  toMachineInt := wrapping 32 (by decide)
  lo_eq := rfl
  hi_eq := rfl

/-- Unsigned integers of `w` bits that are not promoted (`unsigned int` for `w = 32`). -/
def unsignedInt (w : Nat) : MachineInt where
  lo := 0
  hi := 2 ^ w - 1
  norm z := z % 2 ^ w
  lo_le := le_refl _
  le_hi := by have : (0 : ℤ) < 2 ^ w := by positivity
              omega
  mem z := by
    have h0 : (0 : ℤ) < 2 ^ w := by positivity
    have h1 := Int.emod_nonneg z h0.ne'
    have h2 := Int.emod_lt_of_pos z h0
    omega
  exact z h1 h2 := Int.emod_eq_of_lt h1 (by omega)

end Pico
