import Verif.Model.Array

/-!
# The Python class DArray (_pyco_tree/darray.hpp, def_darray.cpp)

`ptrdiff_t` and `size_t` have 64 bits.
-/

namespace Pico

/-- Conversion to `size_t`. -/
def toU64 (x : Int) : Int := x % 2 ^ 64

/-- Conversion to `ptrdiff_t`. -/
def toS64 (x : Int) : Int :=
  if x % 2 ^ 64 < 2 ^ 63 then x % 2 ^ 64 else x % 2 ^ 64 - 2 ^ 64

section
variable {τ : Type}

/-- The index of `__getitem__` with an integer (def_darray.cpp:36-42): `i += a.size()` is computed in
`size_t`, its result is converted to `ptrdiff_t`. -/
def getitemIndex (size : Nat) (i : Int) : Int := if i < 0 then toS64 (toU64 i + size) else i

/-- `__getitem__` with an integer (def_darray.cpp:35-45); a view of the element. -/
def getitem (a : List τ) (i : Int) : Call τ :=
  if getitemIndex a.length i < 0 ∨ toU64 (getitemIndex a.length i) ≥ a.length then .throws
  else
    match readAt a (toU64 (getitemIndex a.length i)) with
    | some x => .ok x
    | none => .ub

/-- `darray_impl::copy` (darray.hpp:64-75): `begin += step` in `size_t`. -/
def copyLoop (a : List τ) (step : Int) : Nat → Int → Call (List τ)
  | 0, _ => .ok []
  | count + 1, begin =>
    match readAt a begin with
    | none => .ub
    | some x => (copyLoop a step count (toU64 (begin + step))).bind fun rest => .ok (x :: rest)

/-- CPython's conversion of a member of a slice to `Py_ssize_t`. -/
def sliceClip (x : Int) : Int := max (-2 ^ 63) (min x (2 ^ 63 - 1))

/-- CPython's `PySlice_Unpack`; `none` is `None`.  `step = 0` raises `ValueError`, `step` is at least
`-PY_SSIZE_T_MAX`. -/
def sliceUnpack (start stop step : Option Int) : Call (Int × Int × Int) :=
  let step := sliceClip (step.getD 1)
  if step = 0 then .throws
  else
    let step := max step (-(2 ^ 63 - 1))
    .ok ((start.map sliceClip).getD (if step < 0 then 2 ^ 63 - 1 else 0),
      (stop.map sliceClip).getD (if step < 0 then -2 ^ 63 else 2 ^ 63 - 1), step)

/-- One bound in CPython's `PySlice_AdjustIndices`. -/
def sliceBound (n : Int) (step x : Int) : Int :=
  if x < 0 then
    if x + n < 0 then (if step < 0 then -1 else 0) else x + n
  else if x ≥ n then (if step < 0 then n - 1 else n)
  else x

/-- CPython's `PySlice_AdjustIndices`: the first index and the number of elements. -/
def sliceAdjust (n : Nat) (start stop step : Int) : Int × Nat :=
  let start := sliceBound n step start
  let stop := sliceBound n step stop
  if step < 0 then
    (start, if stop < start then ((start - stop - 1) / (-step) + 1).toNat else 0)
  else (start, if start < stop then ((stop - start - 1) / step + 1).toNat else 0)

/-- `__getitem__` with a slice (def_darray.cpp:51-59): `py::slice::compute` is `PySlice_GetIndicesEx`, its
results are converted to `size_t`. -/
def getslice (a : List τ) (start stop step : Option Int) : Call (List τ) :=
  (sliceUnpack start stop step).bind fun (start, stop, step) =>
    copyLoop a (toU64 step) (sliceAdjust a.length start stop step).2
      (toU64 (sliceAdjust a.length start stop step).1)

end

end Pico
