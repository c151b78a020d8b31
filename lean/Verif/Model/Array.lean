import Verif.Model.Basic
import Mathlib.Data.List.Basic
import Mathlib.Algebra.BigOperators.Group.List.Basic
import Mathlib.Data.Int.Basic

/-!
# Arrays and views of arrays (map.hpp, opencv_traits.hpp, _pyco_tree/core.hpp, py_array_map.hpp)

A NumPy array is a block of memory with a shape and strides.  NumPy itself is not part of the repository:
`isC`, `isF` (the flags) and `resize` follow NumPy's `_UpdateContiguousFlags` and `PyArray_Resize`.
Strides and positions count elements, not bytes.  Sizes are not reduced modulo 2^64: an array that exists
has fewer elements.
-/

namespace Pico

/-- Result of a call from Python: a value, a C++ exception (which pybind11 turns into a Python exception),
undefined behaviour, out of fuel, or `mismatch`: the query has another dimension than the tree and the
code goes on (see `metricMem`). -/
inductive Call (τ : Type) where
  | ok (v : τ)
  | throws
  | ub
  | oof
  | mismatch
  deriving DecidableEq

/-- Sequencing. -/
def Call.bind {τ υ : Type} (x : Call τ) (f : τ → Call υ) : Call υ :=
  match x with
  | ok a => f a
  | throws => throws
  | ub => ub
  | oof => oof
  | mismatch => mismatch

/-- A C++ function called from a binding. -/
def Call.ofOutcome {τ : Type} : Outcome τ → Call τ
  | .ok a => .ok a
  | .ub => .ub
  | .oof => .oof

/-- Boolean test of a finished call, for checking concrete cases by evaluation. -/
def Call.check {τ : Type} (x : Call τ) (p : τ → Bool) : Bool :=
  match x with
  | ok a => p a
  | _ => false

/-- The element types that the bindings distinguish (`py::dtype`). -/
inductive DType where
  | float32
  | float64
  | int32
  | neighborF
  | neighborD
  | other (code : Nat)
  deriving DecidableEq

/-- An array: `buf` is the allocated memory, `base` the position of the first element in it. -/
structure NArray (τ : Type) where
  dtype : DType
  shape : List Nat
  strides : List Int
  base : Int
  buf : List τ
  writeable : Bool
  owns : Bool

section
variable {τ : Type}

/-- Reading a position of the memory; `none` outside. -/
def readAt (buf : List τ) (p : Int) : Option τ := if 0 ≤ p then buf[p.toNat]? else none

/-- Position of the element with index `idx`. -/
def NArray.pos (a : NArray τ) (idx : List Nat) : Int :=
  a.base + ((idx.zip a.strides).map fun x => (x.1 : Int) * x.2).sum

/-- `a[idx]`. -/
def NArray.get (a : NArray τ) (idx : List Nat) : Option τ := readAt a.buf (a.pos idx)

/-- Scan of NumPy's `_UpdateContiguousFlags`: dimensions of size 1 do not matter. -/
def contiguous : List (Nat × Int) → Int → Bool
  | [], _ => true
  | (n, s) :: rest, e => if n = 1 then contiguous rest e else decide (s = e) && contiguous rest (e * n)

/-- The flag `c_style`; arrays without elements have both flags. -/
def NArray.isC (a : NArray τ) : Bool :=
  a.shape.any (· == 0) || contiguous (a.shape.zip a.strides).reverse 1

/-- The flag `f_style`. -/
def NArray.isF (a : NArray τ) : Bool :=
  a.shape.any (· == 0) || contiguous (a.shape.zip a.strides) 1

/-- Strides of a new C ordered array. -/
def cStrides : List Nat → List Int
  | [] => []
  | _ :: rest => (rest.prod : Nat) :: cStrides rest

/-- Strides of a new F ordered array. -/
def fStrides (e : Nat) : List Nat → List Int
  | [] => []
  | n :: rest => e :: fStrides (e * n) rest

/-- `PyArray_Resize` without reference check: contiguous arrays that own their memory only, new elements
are zero, the order stays F only if the array is F but not C ordered. -/
def NArray.resize (zero : τ) (a : NArray τ) (shape : List Nat) : Call (NArray τ) :=
  if !(a.isC || a.isF) then .throws
  else if !a.owns then .throws
  else .ok
    { dtype := a.dtype
      shape := shape
      strides := if a.isF && !a.isC then fStrides 1 shape else cStrides shape
      base := 0
      buf := a.buf.take shape.prod ++ List.replicate (shape.prod - a.buf.length) zero
      writeable := a.writeable
      owns := a.owns }

/-- `space_map<point_map>` (map.hpp:138-169) and `py_array_map` (py_array_map.hpp:16-34): `buf` is the
memory `data` points into. -/
structure SpaceMap (τ : Type) where
  buf : List τ
  data : Int
  size : Nat
  sdim : Nat
  rowMajor : Bool

/-- Constructor: with a compile time dimension the argument `sdim` is ignored
(`space_map_matrix_storage`, map.hpp:66-84). -/
def SpaceMap.mk' (Dim : Option Nat) (buf : List τ) (data : Int) (size sdim : Nat) (rowMajor : Bool) :
    SpaceMap τ where
  buf := buf
  data := data
  size := size
  sdim := Dim.getD sdim
  rowMajor := rowMajor

/-- Coordinate `j` of point `i`: `space[i][j]` (map.hpp:153-161, 54-56). -/
def SpaceMap.coord (m : SpaceMap τ) (i j : Nat) : Option τ :=
  readAt m.buf (m.data + ((i * m.sdim + j : Nat) : Int))

/-- All `d` coordinates of point `i`; `none`: some of them are outside of the memory. -/
def SpaceMap.point (m : SpaceMap τ) (d i : Nat) : Option (Pt τ d) :=
  if h : ∀ j : Fin d, (m.coord i j).isSome = true then some fun j => (m.coord i j).get (h j) else none

/-- `array_layout::inner_stride` (core.hpp:51-60); `none`: the index is out of bounds. -/
def NArray.innerStride (a : NArray τ) : Option Nat := a.shape[if a.isC then 1 else 0]?

/-- `array_layout::outer_stride` (core.hpp:51-62). -/
def NArray.outerStride (a : NArray τ) : Option Nat := a.shape[if a.isC then 0 else 1]?

/-- `is_dim_compatible` (core.hpp:68-76); `none` is `dynamic_extent`. -/
def isDimCompatible : Option Nat → Nat → Bool
  | some D, d => D == d
  | none, _ => true

/-- `make_map` (py_array_map.hpp:36-62). -/
def makeMap (Dim : Option Nat) (a : NArray τ) : Call (SpaceMap τ) :=
  if a.shape.length ≠ 2 then .throws
  else if !(a.isC || a.isF) then .throws
  else
    match a.innerStride with
    | none => .ub
    | some inner =>
      if !isDimCompatible Dim inner then .throws
      else
        match a.outerStride with
        | none => .ub
        | some outer => .ok (SpaceMap.mk' Dim a.buf a.base outer inner a.isC)

/-- The choice of the compile time dimension in `make_kd_tree_from_dim` (_pyco_tree/kd_tree.hpp:406-424):
the inner stride is read before the number of dimensions is checked. -/
def chooseDim (a : NArray τ) : Call (Option Nat) :=
  match a.innerStride with
  | none => .ub
  | some inner => if inner = 2 then .ok (some 2) else if inner = 3 then .ok (some 3) else .ok none

/-- The view of the points in the constructors of the Python `KdTree` (_pyco_tree/kd_tree.hpp:454-459,
406-424, 109-115). -/
def treeMap (a : NArray τ) : Call (Option Nat × SpaceMap τ) :=
  (chooseDim a).bind fun Dim => (makeMap Dim a).bind fun m => .ok (Dim, m)

/-- `request` (_pyco_tree/kd_tree.hpp:292-315): the buffer a `KdTree` offers to NumPy. -/
def request (dtype : DType) (m : SpaceMap τ) : NArray τ where
  dtype := dtype
  shape := if m.rowMajor then [m.size, m.sdim] else [m.sdim, m.size]
  strides := if m.rowMajor then [(m.sdim : Int), 1] else [1, (m.sdim : Int)]
  base := m.data
  buf := m.buf
  writeable := false
  owns := false

/-- A `cv::Mat`: `rows` rows of `width` scalars (columns times channels); the rows start `step1` scalars
apart. -/
structure Mat (τ : Type) where
  buf : List τ
  base : Int
  rows : Nat
  width : Nat
  step1 : Nat

/-- Element `j` of row `i`. -/
def Mat.get (m : Mat τ) (i j : Nat) : Option τ := readAt m.buf (m.base + ((i * m.step1 + j : Nat) : Int))

/-- `opencv_mat_map` (opencv_traits.hpp:111-116): the spatial dimension is `step1()`. -/
def matMap (Dim : Option Nat) (m : Mat τ) : SpaceMap τ := SpaceMap.mk' Dim m.buf m.base m.rows m.step1 true

end

section
variable {α : Type} [Zero α] [Add α]

/-- `internal::sum` over iterators (metric.hpp:30-51): `size` is `end1 - begin1`, both ranges are read
from memory.  `none`: a read outside. -/
def sumMem (f : α → α → α) (buf1 : List α) (p1 : Int) (buf2 : List α) (p2 : Int) :
    Nat → α → Option α
  | 0, acc => some acc
  | size + 1, acc =>
    match readAt buf1 p1, readAt buf2 p2 with
    | some x, some y => sumMem f buf1 (p1 + 1) buf2 (p2 + 1) size (acc + f x y)
    | _, _ => none

/-- `metric_(query_.begin(), query_.end(), space_[i])` for a sum (kd_tree_search.hpp:58,
point_wrapper.hpp:30-46): the number of coordinates is that of the query. -/
def metricMem (f : α → α → α) (q : SpaceMap α) (iq : Nat) (s : SpaceMap α) (i : Nat) : Option α :=
  sumMem f q.buf (q.data + ((iq * q.sdim : Nat) : Int)) s.buf (s.data + ((i * s.sdim : Nat) : Int))
    q.sdim 0

end

end Pico
