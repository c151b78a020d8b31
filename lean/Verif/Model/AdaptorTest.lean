import Verif.Model.Eigen
import Verif.Model.View
import Verif.Model.Gtest

/-!
# The tests of the space adaptors

`check_space_adaptor` (test/pico_tree/common.hpp:22-51) and the tests that call it. The static assertions about types and
compile time dimensions are not modelled.
-/

namespace Pico.Gtest

/-- `EXPECT_DOUBLE_EQ(a, b)` (common.hpp:12): at most four units in the last place apart. -/
def doubleEq (a b : (ieee 52 (-1074)).F) : Bool :=
  decide (|ordinal 52 (-1074) a.1 - ordinal 52 (-1074) b.1| ≤ 4)

variable {τ : Type}

/-- A space as seen through `space_wrapper` (space_wrapper.hpp:27-52); `none`: a read outside of its memory. -/
structure Adaptor (τ : Type) where
  sdim : Nat
  size : Nat
  coord : Nat → Nat → Option τ

/-- The loop of `check_space_adaptor` (common.hpp:48-50); a failed comparison does not end it. -/
def compareN (eq : τ → τ → Bool) (ref tst : Nat → Option τ) : Nat → Outcome Bool
  | 0 => .ok true
  | n + 1 => (compareN eq ref tst n).bind fun b =>
    match ref n, tst n with
    | some x, some y => .ok (b && eq x y)
    | _, _ => .ub

/-- `check_space_adaptor` (common.hpp:22-51); `.ok true`: no expectation failed. -/
def checkAdaptor (eq : τ → τ → Bool) (A : Adaptor τ) (sdim npts idx : Nat) (ref : Nat → Option τ) : Outcome Bool :=
  (compareN eq ref (A.coord idx) sdim).bind fun b => .ok (decide (sdim = A.sdim) && decide (npts = A.size) && b)

/-- A matrix of Eigen as space. -/
def ofEigen (m : EMat τ) : Adaptor τ := ⟨m.sdim, m.size, m.coord⟩

/-- A view as space; also the `opencv_mat_map` and, with its elements as buffer, a vector of points. -/
def ofMap (m : SpaceMap τ) : Adaptor τ := ⟨m.sdim, m.size, m.coord⟩

/-- One half of `check_eigen_adaptor_interface` (eigen3_traits_test.cpp:12-18 and 19-25): the last column, or row. -/
def eigenTest (eq : τ → τ → Bool) (m : EMat τ) : Outcome Bool :=
  if m.rowMajor then checkAdaptor eq (ofEigen m) m.cols m.rows (m.rows - 1) (m.row (m.rows - 1)).coord
  else checkAdaptor eq (ofEigen m) m.rows m.cols (m.cols - 1) (m.col (m.cols - 1)).coord

/-- `OpenCvTraitsTest` (opencv_traits_test.cpp:7-24): `row.ptr()` is the pointer to the last row. -/
def opencvTest (eq : τ → τ → Bool) (dim : Nat) (m : Mat τ) : Outcome Bool :=
  checkAdaptor eq (ofMap (matMap (some dim) m)) m.width m.rows (m.rows - 1) (m.get (m.rows - 1))

/-- `SpaceMapTraitsTest` (space_map_traits_test.cpp:16-27, 34-39): everything that is expected comes from the view. -/
def mapTest (eq : τ → τ → Bool) (Dim : Option Nat) (m : SpaceMap τ) : Outcome Bool :=
  checkAdaptor eq (ofMap m) m.sdim m.size 0 (SpaceMap.row Dim m 0).get

/-- `VectorTraitsTest` (vector_traits_test.cpp:8-33): a vector of points with `dim` coordinates each; the references
(`std::ref`, `std::cref`) lead to the same object. -/
def vectorTest (eq : τ → τ → Bool) (dim : Nat) (points : List (List τ)) : Outcome Bool :=
  checkAdaptor eq ⟨dim, points.length, fun i j => (points[i]?).bind fun p => p[j]?⟩ dim points.length 0
    fun j => (points[0]?).bind fun p => p[j]?

end Pico.Gtest
