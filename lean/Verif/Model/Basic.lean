import Mathlib.Order.Defs.LinearOrder
import Mathlib.Algebra.Notation.Defs
import Mathlib.Data.Fin.Basic
import Mathlib.Data.List.FinRange

/-!
# Basic vocabulary of the model

Scalars are an arbitrary type `α` with `<`, `<=` and uninterpreted arithmetic operations.  Nothing in
the model definitions assumes an algebraic or an order law; the theorems state which laws they need.
-/

namespace Pico

/-- Result of running a piece of C++ code: a value, undefined behaviour, or "out of fuel" (the
recursion has not finished within the given number of nested calls).  Modelling device; it does
not correspond to a C++ type. -/
inductive Outcome (τ : Type) where
  | ok (a : τ)
  | ub
  | oof
  deriving DecidableEq, Repr

namespace Outcome

/-- Sequencing: undefined behaviour and divergence are absorbing. -/
def bind {τ υ : Type} (x : Outcome τ) (f : τ → Outcome υ) : Outcome υ :=
  match x with
  | ok a => f a
  | ub => ub
  | oof => oof

instance : Monad Outcome where
  pure := ok
  bind := bind

end Outcome

/-- Machine dependent constants and operations of the scalar type.
* `low`, `big`: `std::numeric_limits<scalar>::lowest()`, `max()`
  (box.hpp:56-57, box.hpp:73, search_visitor.hpp:50, 102, 176, 217);
* `mulHalf x`: `x * scalar_type(0.5)` (kd_tree_builder.hpp:205);
* `divTwo x`: `x / scalar_type(2.0)` (kd_tree_builder.hpp:241). -/
structure Num (α : Type) where
  low : α
  big : α
  mulHalf : α → α
  divTwo : α → α

/-- A point of spatial dimension `d`: `scalar_type const*` with `sdim() == d` (space_wrapper.hpp:30-32,
point.hpp). -/
abbrev Pt (α : Type) (d : Nat) := Fin d → α

section
variable {α : Type} [LT α] [LE α] [DecidableLT α] [DecidableLE α]

/-- `std::abs` on a scalar (distance.hpp:20, 27; metric.hpp:96). -/
def sabs [Zero α] [Neg α] (x : α) : α := if x < 0 then -x else x

/-- `std::min(a, b)`: returns `b` only if `b < a` (distance.hpp:28, metric.hpp:175, segment.hpp:76, 86). -/
def stdMin (a b : α) : α := if b < a then b else a

/-- `std::max(a, b)`: returns `b` only if `a < b` (metric.hpp:144). -/
def stdMax (a b : α) : α := if a < b then b else a

end

/-- `neighbor` (core.hpp:24-46). -/
structure Neighbor (α : Type) where
  index : Nat
  distance : α
  deriving DecidableEq, Repr

/-- `operator<` on neighbors compares distances only (core.hpp:49-54). -/
def Neighbor.lt {α : Type} [LT α] [DecidableLT α] (a b : Neighbor α) : Bool := decide (a.distance < b.distance)

end Pico
