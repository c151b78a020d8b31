import Verif.Model.Basic

/-!
# dynamic_space

The adaptor of the examples that hides a compile time dimension (pico_toolshed/dynamic_space.hpp), as used by the
benchmarks and by the tests of saving and loading: which types of spaces the library can work with, and what it reads.
-/

namespace Pico.Dyn

/-- Types of spaces. `base`: a type with traits of its own, such as `std::vector<point_2f>`, with its compile time
dimension. `ref`: `std::reference_wrapper`. `dyn`: `dynamic_space`. -/
inductive Ty where
  | base (name : Nat) (dim : Option Nat)
  | ref (t : Ty)
  | dyn (t : Ty)
  deriving DecidableEq

/-- The type that the conversion operator of an object gives (std::reference_wrapper, dynamic_space.hpp:37-38, 50-51). -/
def Ty.conv : Ty → Option Ty
  | .base _ _ => none
  | .ref t => some t
  | .dyn (.ref t) => some t
  | .dyn t => some t

/-- An argument of type `arg` is accepted by a parameter `param const&`: at most one conversion operator is applied
(C++ allows one user-defined conversion). -/
def accepts (param arg : Ty) : Prop := arg = param ∨ arg.conv = some param

/-- The parameter of `size` and `point_at` in `space_traits<T>`: inherited (space_traits.hpp:18-27,
dynamic_space.hpp:54-55). -/
def Ty.sizeParam : Ty → Ty
  | .base n d => .base n d
  | .ref t => t.sizeParam
  | .dyn t => t.sizeParam

/-- The parameter of `sdim` in `space_traits<T>`: `dynamic_space` has its own (dynamic_space.hpp:60). -/
def Ty.sdimParam : Ty → Ty
  | .base n d => .base n d
  | .ref t => t.sdimParam
  | .dyn t => .dyn t

/-- `space_traits<T>::dim` (dynamic_space.hpp:58). -/
def Ty.dim : Ty → Option Nat
  | .base _ d => d
  | .ref t => t.dim
  | .dyn _ => none

/-- Objects of the type can be made: the constructor of `dynamic_space` calls `space_traits<Space_>::sdim`
(dynamic_space.hpp:16-18). -/
def Ty.constructible : Ty → Prop
  | .base _ _ => True
  | .ref t => t.constructible
  | .dyn t => t.constructible ∧ accepts t.sdimParam t

/-- `space_wrapper<T>` compiles (space_wrapper.hpp:27-52): `operator[]`, `size`, and `sdim`, whose traits are only called
without a compile time dimension. -/
def Ty.wrappable (t : Ty) : Prop := accepts t.sizeParam t ∧ (t.dim = none → accepts t.sdimParam t)

variable {α : Type}

/-- A space with traits of its own, as an object: its compile time dimension, the dimension and number of its points, and
the coordinates, one point after the other. -/
structure Store (α : Type) where
  dim : Option Nat
  sdim : Nat
  size : Nat
  data : List α

/-- What a space type holds: the space (`std::move(space)`), or a reference to an object elsewhere. -/
inductive Held (α : Type) where
  | own (s : Store α)
  | ref (a : Nat)

/-- Objects that references refer to. -/
abbrev Objs (α : Type) := Nat → Store α

/-- The conversion to `Space_ const&`. -/
def Held.get (μ : Objs α) : Held α → Store α
  | .own s => s
  | .ref a => μ a

/-- `space_traits<Space_>::sdim` (for example vector_traits.hpp:43, eigen3_traits.hpp:117-121). -/
def Store.traitsSdim (s : Store α) : Nat := s.dim.getD s.sdim

/-- A `dynamic_space` (dynamic_space.hpp:23-24). -/
structure DynSpace (α : Type) where
  space : Held α
  sdim : Nat

/-- The constructor (dynamic_space.hpp:16-18): the dimension is asked for once. -/
def DynSpace.new (μ : Objs α) (h : Held α) : DynSpace α := ⟨h, (h.get μ).traitsSdim⟩

/-- What `space_wrapper` offers (space_wrapper.hpp:30-52); `coord i j` reads coordinate `j` behind the pointer to point
`i`. -/
structure Wrap (α : Type) where
  dim : Option Nat
  sdim : Nat
  size : Nat
  coord : Nat → Nat → Outcome α

/-- A read from the coordinates of a space, behind the pointer to point `i`. -/
def Store.coord (s : Store α) (i j : Nat) : Outcome α :=
  match s.data[i * s.sdim + j]? with
  | some x => .ok x
  | none => .ub

/-- The wrapper of a space or of a reference to one. -/
def wrapHeld (μ : Objs α) (h : Held α) : Wrap α :=
  ⟨(h.get μ).dim, match (h.get μ).dim with
    | some n => n
    | none => (h.get μ).traitsSdim, (h.get μ).size, (h.get μ).coord⟩

/-- The type of a space or of a reference to one. -/
def Held.ty (μ : Objs α) : Held α → Ty
  | .own s => .base 0 s.dim
  | .ref a => .ref (.base 0 (μ a).dim)

/-- The wrapper of a `dynamic_space` (dynamic_space.hpp:54-61): `sdim` is the stored one if the traits take the
`dynamic_space` itself, and that of the space if it is converted. -/
def wrapDyn (μ : Objs α) (d : DynSpace α) : Wrap α :=
  ⟨(Ty.dyn (d.space.ty μ)).dim, match (Ty.dyn (d.space.ty μ)).sdimParam with
    | .dyn _ => d.sdim
    | _ => (d.space.get μ).traitsSdim, (d.space.get μ).size, (d.space.get μ).coord⟩

/-- `n` reads one after the other. -/
def readN {γ : Type} (f : Nat → Outcome γ) : Nat → Outcome (List γ)
  | 0 => .ok []
  | n + 1 => (readN f n).bind fun xs => (f n).bind fun x => .ok (xs ++ [x])

/-- All coordinates of all points, as read by `compute_bounding_box` (space_wrapper.hpp:35-41, box.hpp:86-95). -/
def Wrap.readAll (w : Wrap α) : Outcome (List (List α)) := readN (fun i => readN (w.coord i) w.sdim) w.size

/-- A change of the program to its objects. -/
inductive Change (α : Type) where
  /-- To an object that may be referred to. -/
  | obj (a : Nat) (s : Store α)
  /-- Through the conversion to `Space_&` of the dynamic space (dynamic_space.hpp:38, 51). -/
  | through (s : Store α)

/-- The change itself; the types of objects, and so the compile time dimensions, stay. -/
def change (c : Change α) (x : Objs α × DynSpace α) : Objs α × DynSpace α :=
  match c with
  | .obj a s => (fun b => if b = a then { s with dim := (x.1 a).dim } else x.1 b, x.2)
  | .through s =>
    match x.2.space with
    | .own s' => (x.1, { x.2 with space := .own { s with dim := s'.dim } })
    | .ref a => (fun b => if b = a then { s with dim := (x.1 a).dim } else x.1 b, x.2)

end Pico.Dyn
