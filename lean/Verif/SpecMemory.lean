import Verif.Model.Memory

/-!
# Specification vocabulary for the node memory

A user's view: in which state each allocator object is, which operations a well behaved program may
apply, and which objects (pointers) belong to which allocator.  Independent of how the allocator keeps
its memory.
-/

namespace Pico.Spec

/-- State of an allocator object as its user sees it. -/
inductive Status where
  /-- not constructed, or destroyed -/
  | absent
  /-- never allocated anything -/
  | empty
  | active
  /-- its contents were moved away -/
  | moved
  deriving DecidableEq

/-- After `std::move`. -/
def Status.afterMove : Status → Status
  | .active => .moved
  | s => s

/-- What a well behaved program may do: it does not allocate from an object that was moved from, and it
does not assign to an object that owns memory, nor to itself. -/
def Allowed (st : Nat → Status) : MemOp → Prop
  | .construct a => st a = .absent
  | .allocate a => st a = .empty ∨ st a = .active
  | .moveConstruct a b => st a = .absent ∧ st b ≠ .absent
  | .moveAssign a b => a ≠ b ∧ st b ≠ .absent ∧ (st a = .empty ∨ st a = .moved)
  | .destroy a => st a ≠ .absent

/-- The next states. -/
def next (st : Nat → Status) : MemOp → Nat → Status
  | .construct a => Function.update st a .empty
  | .allocate a => Function.update st a .active
  | .moveConstruct a b => Function.update (Function.update st b (st b).afterMove) a (st b)
  | .moveAssign a b => Function.update (Function.update st b (st b).afterMove) a (st b)
  | .destroy a => Function.update st a .absent

/-- A well behaved sequence of operations from the states `st`. -/
def WellBehaved (st : Nat → Status) : List MemOp → Prop
  | [] => True
  | op :: ops => Allowed st op ∧ WellBehaved (next st op) ops

/-- The states at the end. -/
def statesAfter (st : Nat → Status) : List MemOp → Nat → Status
  | [] => st
  | op :: ops => statesAfter (next st op) ops

/-- Who owns which pointer: `allocate` gives the result to the allocator, moves hand everything over,
destruction ends the ownership. -/
def ownership (own : List (Ptr × Nat)) : MemOp → Option Ptr → List (Ptr × Nat)
  | .allocate a, some p => (p, a) :: own
  | .moveConstruct a b, _ => own.map fun x => if x.2 = b then (x.1, a) else x
  | .moveAssign a b, _ => own.map fun x => if x.2 = b then (x.1, a) else x
  | .destroy a, _ => own.filter fun x => x.2 ≠ a
  | _, _ => own

/-- The same for a sequence of operations with their results. -/
def ownershipAfter (own : List (Ptr × Nat)) : List MemOp → List (Option Ptr) → List (Ptr × Nat)
  | op :: ops, r :: rs => ownershipAfter (ownership own op r) ops rs
  | _, _ => own

end Pico.Spec
