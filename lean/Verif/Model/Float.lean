import Verif.Model.Rounding

/-!
# Floating point numbers with infinities and NaN

`Model/Rounding.lean` describes the finite numbers of a floating point type as if there were no largest one.
Here the type is complete: an operation whose rounded result exceeds `numeric_limits::max()` gives an
infinity, an invalid operation gives NaN, and every comparison with NaN is false (IEEE 754).  Scalars of the
model only need `<` and `<=`, so that the whole model runs on these numbers although they are not linearly
ordered.  Modelling device for `scalar_type` (space_traits).  Simplification: there is one zero, the positive
one; only the sign of the result of a division by zero would differ.
-/

namespace Pico

/-- A floating point format: a rounding of an exact field, and `numeric_limits::max()`. -/
structure FloatFormat (K : Type) [Field K] [LinearOrder K] [IsStrictOrderedRing K] extends Rounding K where
  big : K
  big_rd : rd big = big
  big_pos : 0 < big

section
variable {K : Type} [Field K] [LinearOrder K] [IsStrictOrderedRing K]

/-- The numbers of the format. `inf true` is minus infinity. -/
inductive Fl (Φ : FloatFormat K) where
  | nan
  | inf (neg : Bool)
  | fin (x : K) (h : Φ.rd x = x ∧ -Φ.big ≤ x ∧ x ≤ Φ.big)

namespace Fl
variable {Φ : FloatFormat K}

instance : DecidableEq (Fl Φ)
  | .nan, .nan => .isTrue rfl
  | .nan, .inf _ => .isFalse (by simp)
  | .nan, .fin _ _ => .isFalse (by simp)
  | .inf _, .nan => .isFalse (by simp)
  | .inf s, .inf t => decidable_of_iff (s = t) (by simp)
  | .inf _, .fin _ _ => .isFalse (by simp)
  | .fin _ _, .nan => .isFalse (by simp)
  | .fin _ _, .inf _ => .isFalse (by simp)
  | .fin x _, .fin y _ => decidable_of_iff (x = y) (by simp)

/-- Round to nearest, overflow to infinity. -/
def ofK (Φ : FloatFormat K) (x : K) : Fl Φ :=
  if h1 : Φ.big < Φ.rd x then .inf false
  else if h2 : Φ.rd x < -Φ.big then .inf true
  else .fin (Φ.rd x) ⟨Φ.idem x, not_lt.1 h2, not_lt.1 h1⟩

/-- `<` (false if an operand is NaN). -/
def blt : Fl Φ → Fl Φ → Bool
  | .nan, _ => false
  | .inf _, .nan => false
  | .inf s, .inf t => s && !t
  | .inf s, .fin _ _ => s
  | .fin _ _, .nan => false
  | .fin _ _, .inf t => !t
  | .fin x _, .fin y _ => decide (x < y)

/-- `<=` (false if an operand is NaN). -/
def ble : Fl Φ → Fl Φ → Bool
  | .nan, _ => false
  | .inf _, .nan => false
  | .inf s, .inf t => s || !t
  | .inf s, .fin _ _ => s
  | .fin _ _, .nan => false
  | .fin _ _, .inf t => !t
  | .fin x _, .fin y _ => decide (x ≤ y)

instance : LT (Fl Φ) := ⟨fun a b => blt a b = true⟩
instance : LE (Fl Φ) := ⟨fun a b => ble a b = true⟩
instance : DecidableLT (Fl Φ) := fun a b => inferInstanceAs (Decidable (blt a b = true))
instance : DecidableLE (Fl Φ) := fun a b => inferInstanceAs (Decidable (ble a b = true))

instance : Zero (Fl Φ) := ⟨.fin 0 ⟨Φ.rd_zero, by have := Φ.big_pos; linarith, Φ.big_pos.le⟩⟩
instance : One (Fl Φ) := ⟨ofK Φ 1⟩

/-- Unary minus. -/
def neg : Fl Φ → Fl Φ
  | .nan => .nan
  | .inf s => .inf (!s)
  | .fin x h => .fin (-x) ⟨by rw [Φ.odd, h.1], by linarith [h.2.2], by linarith [h.2.1]⟩

/-- `+`. -/
def add : Fl Φ → Fl Φ → Fl Φ
  | .nan, _ => .nan
  | .inf _, .nan => .nan
  | .inf s, .inf t => if s = t then .inf s else .nan
  | .inf s, .fin _ _ => .inf s
  | .fin _ _, .nan => .nan
  | .fin _ _, .inf t => .inf t
  | .fin x _, .fin y _ => ofK Φ (x + y)

/-- Infinity times a finite number: zero gives NaN. -/
def infTimes (s : Bool) (x : K) : Fl Φ :=
  if x = 0 then .nan else .inf (s != decide (x < 0))

/-- `*`. -/
def mul : Fl Φ → Fl Φ → Fl Φ
  | .nan, _ => .nan
  | .inf _, .nan => .nan
  | .inf s, .inf t => .inf (s != t)
  | .inf s, .fin y _ => infTimes s y
  | .fin _ _, .nan => .nan
  | .fin x _, .inf t => infTimes t x
  | .fin x _, .fin y _ => ofK Φ (x * y)

/-- `/`. -/
def div : Fl Φ → Fl Φ → Fl Φ
  | .nan, _ => .nan
  | .inf _, .nan => .nan
  | .inf _, .inf _ => .nan
  | .inf s, .fin y _ => .inf (s != decide (y < 0))
  | .fin _ _, .nan => .nan
  | .fin _ _, .inf _ => 0
  | .fin x _, .fin y _ =>
    if y = 0 then (if x = 0 then .nan else .inf (decide (x < 0))) else ofK Φ (x / y)

instance : Neg (Fl Φ) := ⟨neg⟩
instance : Add (Fl Φ) := ⟨add⟩
instance : Sub (Fl Φ) := ⟨fun a b => add a (neg b)⟩
instance : Mul (Fl Φ) := ⟨mul⟩
instance : Div (Fl Φ) := ⟨div⟩

/-- Halving. -/
def half : Fl Φ → Fl Φ
  | .nan => .nan
  | .inf s => .inf s
  | .fin x _ => ofK Φ (x / 2)

/-- `numeric_limits::lowest()`, `max()`, `x * scalar_type(0.5)` and `x / scalar_type(2.0)`
(kd_tree_builder.hpp:205, 241; the factors are powers of two, so both are the rounded half). -/
def num (Φ : FloatFormat K) : Num (Fl Φ) where
  low := .fin (-Φ.big) ⟨by rw [Φ.odd, Φ.big_rd], le_rfl, by have := Φ.big_pos; linarith⟩
  big := .fin Φ.big ⟨Φ.big_rd, by have := Φ.big_pos; linarith, le_rfl⟩
  mulHalf := half
  divTwo := half

end Fl
end

end Pico
