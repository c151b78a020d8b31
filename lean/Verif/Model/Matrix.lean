import Verif.Model.Forest

/-!
# The copy of the points in a tree of the forest (examples/pico_understory)

`Model/Forest.lean` treats the rotated points as a function.  Here they are the memory of a `matrix_space`, filled
by the loops of the code.  File names are relative to `examples/pico_understory/pico_understory/`.  Results are
`none` if memory outside of the block is read or written.
-/

namespace Pico

section
variable {α : Type}

/-- `matrix_space` (internal/matrix_space.hpp:27-69) with its storage (7-25). -/
structure MatrixSpace (α : Type) where
  size : Nat
  sdim : Nat
  elems : List α

variable [Zero α] [One α] [Add α] [Sub α] [Mul α] {d : Nat}

/-- The constructors (internal/matrix_space.hpp:34-37, 7-25): `std::vector` sets its elements to zero. -/
def MatrixSpace.new (size sdim : Nat) : MatrixSpace α := ⟨size, sdim, List.replicate (size * sdim) 0⟩

/-- `data(i)` as offset from `data()` (internal/matrix_space.hpp:54-60). -/
def MatrixSpace.data (s : MatrixSpace α) (i : Nat) : Nat := i * s.sdim

/-- `space[i][j]` (internal/matrix_space.hpp:39-47, src/pico_tree/pico_tree/map.hpp:54-56). -/
def MatrixSpace.coord (s : MatrixSpace α) (i j : Nat) : Option α := s.elems[s.data i + j]?

/-- The first loop of `rotate_point` (internal/rkd_tree_hh_data.hpp:84-88). `read mem i` is `x[i]`, which may be
in the memory that is written later. -/
def rotateDot (read : List α → Fin d → Option α) (r : Pt α d) (mem : List α) : Option α :=
  ((List.finRange d).foldlM (fun dot i => (read mem i).map fun x => dot + r i * x) 0).map (· * (1 + 1))

/-- The second loop (internal/rkd_tree_hh_data.hpp:89-91): `y[i] = x[i] - (dot * rotation[i])`, `y` at `py`. -/
def rotateWrite (read : List α → Fin d → Option α) (r : Pt α d) (py : Nat) (dot : α) (mem : List α) :
    Option (List α) :=
  (List.finRange d).foldlM (fun mem i => (read mem i).bind fun x =>
    if py + i < mem.length then some (mem.set (py + i) (x - dot * r i)) else none) mem

/-- `rkd_tree_hh_data::rotate_point` (internal/rkd_tree_hh_data.hpp:78-92) with pointers. -/
def rotateInto (read : List α → Fin d → Option α) (r : Pt α d) (py : Nat) (mem : List α) : Option (List α) :=
  (rotateDot read r mem).bind fun dot => rotateWrite read r py dot mem

/-- `rkd_tree_hh_data::rotate_space` (internal/rkd_tree_hh_data.hpp:50-63): `pts` is another space. -/
def rotateSpace (r : Pt α d) (pts : Nat → Pt α d) (n : Nat) : Option (MatrixSpace α) :=
  (List.range n).foldlM (fun s i =>
    (rotateInto (fun _ j => some (pts i j)) r (s.data i) s.elems).map fun e => { s with elems := e })
    (MatrixSpace.new n d)

end

end Pico
