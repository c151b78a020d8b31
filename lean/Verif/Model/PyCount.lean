import Verif.Model.Python

/-!
# `search_knn` from Python with machine integers (_pyco_tree/kd_tree.hpp)

`Model/Python.lean` computes with numbers of any size. Here `k` is any Python integer, sizes and offsets are 64 bits wide
as in the code, and memory is limited.
-/

namespace Pico

variable {α τ : Type} {d : Nat}

/-- 2^63: `size_t` has twice as many values, `ssize_t` as many that are not negative. -/
def half64 : Nat := 2 ^ 63

theorem half64_eq : half64 = 2 ^ 63 := rfl

theorem half64_big : 2 ≤ half64 := by rw [half64_eq]; decide

attribute [irreducible] half64

/-- `size_type(k_nearest)` of a `py::int_`: pybind11's `as_unsigned` returns `-1` for an integer that does not fit and
leaves the `OverflowError` pending (_pyco_tree/kd_tree.hpp:119, 149). -/
def asUnsigned (v : Int) : Nat := if 0 ≤ v ∧ v < 2 * half64 then v.toNat else 2 * half64 - 1

/-- Is an exception pending? -/
def asUnsignedFails (v : Int) : Bool := !decide (0 ≤ v ∧ v < 2 * half64)

/-- `static_cast<py::ssize_t>` of a `size_t`. -/
def toSigned (x : Nat) : Int := if x < half64 then (x : Int) else (x : Int) - 2 * half64

/-- `PyArray_Resize`: negative sizes and more than `cap` elements are errors. -/
def NArray.resizeChecked (cap : Nat) (zero : τ) (a : NArray τ) (shape : List Int) : Call (NArray τ) :=
  if shape.any fun x => decide (x < 0) then .throws
  else if cap < (shape.map Int.toNat).prod then .throws
  else a.resize zero (shape.map Int.toNat)

/-- `ensure_size` (_pyco_tree/kd_tree.hpp:362-378). -/
def ensureSize64 (cap : Nat) (zero : τ) (query : Nat) (rowMajor : Bool) (k : Nat) (nns : NArray τ) :
    Call (NArray τ) :=
  if (nns.shape.prod : Int) ≠ toSigned (query * k % (2 * half64)) then
    if k = 1 then nns.resizeChecked cap zero [toSigned query]
    else nns.resizeChecked cap zero (if rowMajor then [toSigned query, toSigned k] else [toSigned k, toSigned query])
  else .ok nns

/-- Body of the loops of `search_knn` (_pyco_tree/kd_tree.hpp:130-133, 160-166). -/
def knnStep64 (search : Pt α d → List τ → Outcome (List τ)) (q : SpaceMap α) (k : Nat) (output : Int)
    (i : Nat) (buf : List τ) : Call (List τ) :=
  match q.point d i, memSlice buf (output + ((i * k % (2 * half64) : Nat) : Int)) k with
  | some x, some s => (Call.ofOutcome (search x s)).bind fun r =>
      .ok (memSplice buf (output + ((i * k % (2 * half64) : Nat) : Int)) r)
  | _, _ => .ub

/-- `search_knn(pts, v, nns)` and `search_knn(pts, v, e, nns)` (_pyco_tree/kd_tree.hpp:117-135, 144-168). A function
that returns while an exception is pending is an error for Python, too (`SystemError`). -/
def pyKnnInto64 (cap : Nat) (Dim : Option Nat) (scalarT neighborT : DType) (zero : τ)
    (search : Pt α d → List τ → Outcome (List τ)) (pts : NArray α) (v : Int) (nns : NArray τ) :
    Call (NArray τ) :=
  if pts.dtype ≠ scalarT then .throws
  else if nns.dtype ≠ neighborT then .throws
  else
    (makeMap Dim pts).bind fun q =>
      (ensureSize64 cap zero q.size q.rowMajor (asUnsigned v) nns).bind fun nns =>
        if !nns.writeable then .throws
        else if q.sdim ≠ d then .mismatch
        else (forRange q.size (knnStep64 search q (asUnsigned v) nns.base) nns.buf).bind fun buf =>
          if asUnsignedFails v then .throws else .ok { nns with buf := buf }

/-- `search_knn(pts, v)` and `search_knn(pts, v, e)` (_pyco_tree/kd_tree.hpp:137-142, 170-177). -/
def pyKnn64 (cap : Nat) (Dim : Option Nat) (scalarT neighborT : DType) (zero : τ)
    (search : Pt α d → List τ → Outcome (List τ)) (pts : NArray α) (v : Int) : Call (NArray τ) :=
  pyKnnInto64 cap Dim scalarT neighborT zero search pts v (.default neighborT)

end Pico
