import Verif.Model.Array

/-!
# Views of memory (map.hpp, map_traits.hpp, opencv_traits.hpp)

`Model/Array.lean` has the space views that the Python bindings make.  Here are the remaining constructors and
accessors.  Positions count elements; `none` is a read outside of the memory.
-/

namespace Pico

/-- `dynamic_extent` (core.hpp:19), the largest `size_t`. -/
def dynamicExtent : Nat := 2 ^ 64 - 1

/-- `internal::map` (map.hpp:29-64), and `point_map` (90-107), which only renames its members. -/
structure MapView (τ : Type) where
  buf : List τ
  data : Int
  size : Nat

section
variable {τ : Type}

/-- `map(data)` (map.hpp:43-44) with `map_storage` (12-27): without an extent known at compile time (`none`) the size
is `dynamic_extent`. -/
def MapView.ofData (Ext : Option Nat) (buf : List τ) (data : Int) : MapView τ := ⟨buf, data, Ext.getD dynamicExtent⟩

/-- `map(data, size)` (map.hpp:46-47) with `map_storage` (12-27): an extent known at compile time replaces the size. -/
def MapView.ofSize (Ext : Option Nat) (buf : List τ) (data : Int) (size : Nat) : MapView τ := ⟨buf, data, Ext.getD size⟩

/-- `map(begin, end)` (map.hpp:49-52): the first element is dereferenced for its address; the difference is converted
to `size_t`. -/
def MapView.ofRange (Ext : Option Nat) (buf : List τ) (b e : Nat) : Outcome (MapView τ) :=
  match buf[b]? with
  | none => .ub
  | some _ => .ok ⟨buf, b, Ext.getD (((e : Int) - b) % (2 ^ 64 : Int)).toNat⟩

/-- `operator[]` (map.hpp:54-56). -/
def MapView.get (v : MapView τ) (i : Nat) : Option τ := readAt v.buf (v.data + i)

/-- `space_map(data, size)` for an array of scalars (map.hpp:146-147): the third argument is `dim`. -/
def SpaceMap.ofSize (Dim : Option Nat) (buf : List τ) (data : Int) (size : Nat) : SpaceMap τ :=
  SpaceMap.mk' Dim buf data size (Dim.getD dynamicExtent) true

/-- `operator[]` of a space view (map.hpp:153-161): a `point_map` made from `data(i)` and `sdim`. -/
def SpaceMap.row (Dim : Option Nat) (m : SpaceMap τ) (i : Nat) : MapView τ :=
  .ofSize Dim m.buf (m.data + ((i * m.sdim : Nat) : Int)) m.sdim

/-- `space_map<Point_>` for an array of points of fixed size (map.hpp:111-133): a view of points; `sdim()` is the
dimension of the type. -/
def pointsMap (buf : List τ) (data : Int) (size : Nat) : MapView τ := .ofSize none buf data size

/-- The byte at which `opencv_mat_map` looks for scalar `j` of row `i` (opencv_traits.hpp:111-116, map.hpp:153-161):
`step1()` is a number of scalars of the matrix; the pointer moves by scalars of type `Scalar_`, of `scalar` bytes. -/
def matByte (scalar step1 i j : Nat) : Nat := (i * step1 + j) * scalar

end

end Pico
