import Verif.SpecTree
import Mathlib.Algebra.Order.Field.Basic

/-!
# Vocabulary for statements about regular subdivisions
-/

namespace Pico.Spec

section
variable {α : Type} [LE α] {d : Nat} {β : Type}

/-- Point `i` is stored below the node `t` (through the index list `v`). -/
def Holds (v : List Nat) (t : Tree β) (i : Nat) : Prop := ∃ r ∈ ranges t, i ∈ (v.drop r.1).take (r.2 - r.1)

/-- The place `y` lies in the tight cell of the leaf of point `i`: at every branch above it is not beyond the outermost
points of the child. -/
def tightCell (v : List Nat) : Tree (Branch1 α d) → Nat → (Fin d → α) → Prop
  | .leaf _ _, _, _ => True
  | .branch b l r, i, y =>
    (Holds v l i → y b.splitDim ≤ b.leftMax ∧ tightCell v l i y) ∧
    (Holds v r i → b.rightMin ≤ y b.splitDim ∧ tightCell v r i y)

end

section
variable {α : Type} [Field α] [LinearOrder α] {d : Nat} {β : Type}

/-- Length of a side. -/
def side (b : Box α d) (j : Fin d) : α := b.max j - b.min j

/-- The half of a box below the middle of axis `j`. -/
def lowerHalf (b : Box α d) (j : Fin d) : Box α d :=
  ⟨b.min, fun i => if i = j then (b.min i + b.max i) / 2 else b.max i⟩

/-- The half of a box above the middle of axis `j`. -/
def upperHalf (b : Box α d) (j : Fin d) : Box α d :=
  ⟨fun i => if i = j then (b.min i + b.max i) / 2 else b.min i, b.max⟩

/-- `j` is the first of the longest sides. -/
def FirstLongest (b : Box α d) (j : Fin d) : Prop :=
  (∀ i, side b i ≤ side b j) ∧ ∀ i < j, side b i < side b j

/-- No side is more than twice as long as another. -/
def Aspect2 (b : Box α d) : Prop := ∀ i j, side b i ≤ 2 * side b j

/-- The tree subdivides `cell` by halving it along the split axis of every branch; `P` holds for all
cells, the split axis satisfies `Q` in its cell, and the points of a leaf (through the index list
`v`) lie in the cell of the leaf. -/
def Subdivides (splitDim : β → Fin d) (pts : Nat → Fin d → α) (v : List Nat) (P : Box α d → Prop)
    (Q : Box α d → Fin d → Prop) : Box α d → Tree β → Prop
  | cell, .leaf b e => P cell ∧
      ∀ i ∈ (v.drop b).take (e - b), ∀ j, cell.min j ≤ pts i j ∧ pts i j ≤ cell.max j
  | cell, .branch data l r => P cell ∧ Q cell (splitDim data) ∧
      Subdivides splitDim pts v P Q (lowerHalf cell (splitDim data)) l ∧
      Subdivides splitDim pts v P Q (upperHalf cell (splitDim data)) r

/-- The place `y` lies in the cell of the leaf of point `i`: at every branch above it is on the same side of the middle
of the gap between the two children. -/
def cell (v : List Nat) : Tree (Branch1 α d) → Nat → (Fin d → α) → Prop
  | .leaf _ _, _, _ => True
  | .branch b l r, i, y =>
    (Holds v l i → 2 * y b.splitDim ≤ b.leftMax + b.rightMin ∧ cell v l i y) ∧
    (Holds v r i → b.leftMax + b.rightMin ≤ 2 * y b.splitDim ∧ cell v r i y)

/-- Doubling of the fractional part: what remains of `x` after `k` binary digits are removed. -/
def residual (x : α) : Nat → α
  | 0 => x
  | k + 1 => if 1 / 2 ≤ residual x k then 2 * residual x k - 1 else 2 * residual x k

/-- Binary digit `k` after the point of `x ∈ [0, 1]` (`1` is read as `0.111...`). -/
def digit (x : α) (k : Nat) : Bool := decide (1 / 2 ≤ residual x k)

/-- Digit `t` of the interleaved digits of the coordinates (first coordinate first). -/
def zDigit (x : Fin d → α) (t : Nat) : Bool :=
  if h : 0 < d then digit (x ⟨t % d, Nat.mod_lt _ h⟩) (t / d) else false

/-- `x` comes strictly before `y` on the Z/N-order curve. -/
def ZLess (x y : Fin d → α) : Prop :=
  ∃ t, (∀ u < t, zDigit x u = zDigit y u) ∧ zDigit x t = false ∧ zDigit y t = true

end

end Pico.Spec
