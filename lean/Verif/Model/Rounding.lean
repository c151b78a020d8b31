import Verif.Model.Basic
import Mathlib.Algebra.Order.Field.Basic
import Mathlib.Data.Int.Log
import Mathlib.Algebra.Order.Floor.Semiring
import Mathlib.Data.Rat.Floor

/-!
# Rounded arithmetic

The scalar types of the library are usually `float` and `double`.  Rounded arithmetic is described by a
rounding function of an exact field; the scalars are the numbers the function leaves unchanged, and every
operation is the exact one followed by rounding, as IEEE 754 prescribes.  `ieee p e` is round to nearest,
ties to even, with `p + 1` significant bits and gradual underflow at `2^e`, so it is `float` (`p = 23`,
`e = -149`) and `double` (`p = 52`, `e = -1074`) as long as nothing overflows; `binary p` is the same
without underflow.  Modelling device for `scalar_type` (space_traits); NaN and infinities are not modelled
here.
-/

namespace Pico

/-- A rounding function: monotone, idempotent, symmetric, twice a scalar is a scalar, the difference of two
scalars is never rounded to zero (gradual underflow), and half of a rounded difference does not exceed the
difference. -/
structure Rounding (K : Type) [Field K] [LinearOrder K] [IsStrictOrderedRing K] where
  rd : K → K
  mono : ∀ x y, x ≤ y → rd x ≤ rd y
  idem : ∀ x, rd (rd x) = rd x
  odd : ∀ x, rd (-x) = -rd x
  double : ∀ x, rd x = x → rd (x + x) = x + x
  pos : ∀ x y, rd x = x → rd y = y → x < y → 0 < rd (y - x)
  half : ∀ x y, rd x = x → rd y = y → x ≤ y → rd (rd (y - x) / 2) ≤ y - x

section
variable {K : Type} [Field K] [LinearOrder K] [IsStrictOrderedRing K]

/-- The scalars: the representable numbers. -/
def Rounding.F (R : Rounding K) : Type := { x : K // R.rd x = x }

namespace Rounding
variable (R : Rounding K)

theorem rd_zero : R.rd 0 = 0 := by
  have := R.odd 0
  rw [neg_zero] at this
  linarith

/-- Rounding to a scalar. -/
def ofK (x : K) : R.F := ⟨R.rd x, R.idem x⟩

instance : LinearOrder R.F := inferInstanceAs (LinearOrder { x : K // R.rd x = x })
instance : Zero R.F := ⟨⟨0, R.rd_zero⟩⟩
/-- `1`, rounded if necessary. -/
instance : One R.F := ⟨R.ofK 1⟩
instance : Add R.F := ⟨fun a b => R.ofK (a.1 + b.1)⟩
instance : Sub R.F := ⟨fun a b => R.ofK (a.1 - b.1)⟩
instance : Mul R.F := ⟨fun a b => R.ofK (a.1 * b.1)⟩
instance : Div R.F := ⟨fun a b => R.ofK (a.1 / b.1)⟩
instance : Neg R.F := ⟨fun a => ⟨-a.1, by rw [R.odd, a.2]⟩⟩

/-- The machine constants: halving is rounded, too. -/
def num (low big : R.F) : Num R.F where
  low := low
  big := big
  mulHalf x := R.ofK (x.1 / 2)
  divTwo x := R.ofK (x.1 / 2)

end Rounding
end

section Binary

/-- Round to the nearest integer, ties to even. -/
def roundEven (x : ℚ) : ℤ :=
  if x - ⌊x⌋ < 1 / 2 then ⌊x⌋
  else if 1 / 2 < x - ⌊x⌋ then ⌊x⌋ + 1
  else if ⌊x⌋ % 2 = 0 then ⌊x⌋ else ⌊x⌋ + 1

/-- Exponent of the last place of a positive number with `p + 1` significant bits. -/
def lastPlace (p : Nat) (x : ℚ) : ℤ := Int.log 2 x - p

/-- Round a positive number to `p + 1` significant bits. -/
def roundPos (p : Nat) (x : ℚ) : ℚ := roundEven (x / 2 ^ lastPlace p x) * 2 ^ lastPlace p x

/-- Round to `p + 1` significant bits. -/
def roundBits (p : Nat) (x : ℚ) : ℚ :=
  if 0 < x then roundPos p x else if x < 0 then -roundPos p (-x) else 0

/-- Round a non-negative number to `p + 1` significant bits, but not finer than to multiples of `2^e`. -/
def roundTinyPos (p : Nat) (e : ℤ) (x : ℚ) : ℚ :=
  if 2 ^ (e + p) ≤ x then roundPos p x else roundEven (x / 2 ^ e) * 2 ^ e

/-- Round to nearest with `p + 1` significant bits and gradual underflow at `2^e`. -/
def roundTiny (p : Nat) (e : ℤ) (x : ℚ) : ℚ :=
  if 0 ≤ x then roundTinyPos p e x else -roundTinyPos p e (-x)

end Binary

end Pico
