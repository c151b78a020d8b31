import Verif.Model.Array

/-!
# Eigen matrices as spaces and points (eigen3_traits.hpp)

Eigen itself is not part of the repository: `EMat.get`, `EMat.col` and `EMat.row` follow its documentation
(`Eigen::Stride`: the inner stride is the distance between neighbors in a column of a column major matrix, the
outer stride the distance between columns; for row major matrices rows and columns exchange their roles).
Strides count scalars.
-/

namespace Pico

section
variable {τ : Type}

/-- An `Eigen::Matrix` or an `Eigen::Map` of one. -/
structure EMat (τ : Type) where
  buf : List τ
  base : Int
  rows : Nat
  cols : Nat
  rowMajor : Bool
  inner : Int
  outer : Int

/-- Distance between neighbors of a column. -/
def EMat.rowStride (m : EMat τ) : Int := if m.rowMajor then m.outer else m.inner

/-- Distance between neighbors of a row. -/
def EMat.colStride (m : EMat τ) : Int := if m.rowMajor then m.inner else m.outer

/-- `matrix(r, c)`. -/
def EMat.get (m : EMat τ) (r c : Nat) : Option τ :=
  readAt m.buf (m.base + (r * m.rowStride + c * m.colStride))

/-- An `Eigen::Matrix` that owns its memory: strides without gaps. -/
def EMat.owned (buf : List τ) (rows cols : Nat) (rowMajor : Bool) : EMat τ :=
  ⟨buf, 0, rows, cols, rowMajor, 1, if rowMajor then cols else rows⟩

/-- A vector: `Eigen::Matrix`, `Eigen::Map` or `Eigen::Block` with one column or row. -/
structure EVec (τ : Type) where
  buf : List τ
  base : Int
  size : Nat
  stride : Int

/-- `vector(j)`. -/
def EVec.get (v : EVec τ) (j : Nat) : Option τ := readAt v.buf (v.base + j * v.stride)

/-- `matrix.col(c)`. -/
def EMat.col (m : EMat τ) (c : Nat) : EVec τ := ⟨m.buf, m.base + c * m.colStride, m.rows, m.rowStride⟩

/-- `matrix.row(r)`. -/
def EMat.row (m : EMat τ) (r : Nat) : EVec τ := ⟨m.buf, m.base + r * m.rowStride, m.cols, m.colStride⟩

/-- Coordinate `j` of a point: `data()[j]` with `eigen_point_traits::data` (eigen3_traits.hpp:66-69,
internal/point_wrapper.hpp:26-28). -/
def EVec.coord (v : EVec τ) (j : Nat) : Option τ := readAt v.buf (v.base + j)

/-- `eigen_point_traits::size` (eigen3_traits.hpp:71-74). -/
def EVec.sdim (v : EVec τ) : Nat := v.size

/-- `eigen_traits_impl::point_at` (eigen3_traits.hpp:106-110, 138-142). -/
def EMat.pointAt (m : EMat τ) (i : Nat) : EVec τ := if m.rowMajor then m.row i else m.col i

/-- `eigen_traits_impl::size` (eigen3_traits.hpp:112-115, 144-147). -/
def EMat.size (m : EMat τ) : Nat := if m.rowMajor then m.rows else m.cols

/-- `eigen_traits_impl::sdim` (eigen3_traits.hpp:117-121, 149-153). -/
def EMat.sdim (m : EMat τ) : Nat := if m.rowMajor then m.cols else m.rows

/-- `space_wrapper::operator[]` (internal/space_wrapper.hpp:27-30): coordinate `j` of point `i`. -/
def EMat.coord (m : EMat τ) (i j : Nat) : Option τ := (m.pointAt i).coord j

end

end Pico
