import Verif.Model.Array

/-!
# Specification vocabulary for the Python bindings
-/

namespace Pico.Spec

/-- `idx` is an index of an array of this shape. -/
def InShape (shape idx : List Nat) : Prop := List.Forall₂ (· < ·) idx shape

/-- An array as NumPy hands it out: one stride per dimension, all elements inside of its memory; an array
that owns its memory uses all of it. -/
structure Valid {τ : Type} (a : NArray τ) : Prop where
  dims : a.strides.length = a.shape.length
  inside : ∀ idx, InShape a.shape idx → (a.get idx).isSome = true
  owned : a.owns = true → a.base = 0 ∧ a.buf.length = a.shape.prod

/-- The array holds `n` points of dimension `d`: the rows of a C ordered array, the columns of an F ordered
array that is not also C ordered. -/
def Points {τ : Type} (a : NArray τ) (n d : Nat) : Prop :=
  a.isC = true ∧ a.shape = [n, d] ∨ a.isC = false ∧ a.isF = true ∧ a.shape = [d, n]

/-- `x` is point `i` of the array. -/
def IsPoint {τ : Type} {d : Nat} (a : NArray τ) (i : Nat) (x : Fin d → τ) : Prop :=
  ∀ j : Fin d, a.get (if a.isC then [i, j.1] else [j.1, i]) = some (x j)

/-- A matrix view as OpenCV hands it out. -/
def ValidMat {τ : Type} (m : Mat τ) : Prop :=
  m.width ≤ m.step1 ∧ ∀ i < m.rows, ∀ j < m.width, (m.get i j).isSome = true

/-- The start of the slice `start:stop:step` of a sequence of length `n` (Python Language Reference,
sequence types, notes 4 and 5): negative values count from the end, values beyond an end are moved to
that end. -/
def sliceStart (n : Nat) (step : Int) : Option Int → Int
  | none => if step < 0 then n - 1 else 0
  | some x =>
    let x := if x < 0 then x + n else x
    if step < 0 then max (-1) (min x (n - 1)) else max 0 (min x n)

/-- Whether position `x` lies before the end of the slice. -/
def beforeStop (n : Nat) (step : Int) (x : Int) : Option Int → Prop
  | none => True
  | some y =>
    let y := if y < 0 then y + n else y
    if step < 0 then y < x else x < y

/-- Position `x` of a sequence of length `n` belongs to the slice. -/
def InSlice (n : Nat) (start stop : Option Int) (step : Int) (x : Int) : Prop :=
  0 ≤ x ∧ x < n ∧ step ∣ x - sliceStart n step start ∧
    (if step < 0 then x ≤ sliceStart n step start else sliceStart n step start ≤ x) ∧
    beforeStop n step x stop

end Pico.Spec
