import Mathlib.Order.Defs.LinearOrder
import Mathlib.Order.Basic

/-!
# Specification of box queries

Mentions coordinates only.
-/

namespace Pico.Spec

section
variable {α : Type} [LT α] [LE α] {d : Nat}

/-- `x` lies in the closed box with corners `mn` and `mx`. -/
def InBox (mn mx x : Fin d → α) : Prop := ∀ j, mn j ≤ x j ∧ x j ≤ mx j

/-- `x` lies on the closed arc of the circle from `lo` to `hi`: in `[lo, hi]` if `lo ≤ hi`, and outside
the open interval `(hi, lo)` if the arc passes through the point where 0 and 1 meet. -/
def OnArc (lo hi x : α) : Prop := (lo ≤ hi → lo ≤ x ∧ x ≤ hi) ∧ (hi < lo → ¬ (hi < x ∧ x < lo))

/-- `x` lies in the box with corners `mn` and `mx` in a product of lines and circles (the axes marked
by `circleAxis`). -/
def InTopBox (circleAxis : Fin d → Prop) (mn mx x : Fin d → α) : Prop :=
  ∀ j, (¬ circleAxis j → mn j ≤ x j ∧ x j ≤ mx j) ∧ (circleAxis j → OnArc (mn j) (mx j) (x j))

end

end Pico.Spec
