import Verif.Model.TreeObj

/-!
# Specification vocabulary for objects that are moved

What a user thinks of an object of the class `kd_tree`: it does not exist, or it holds a tree and a point set, or both
were moved away.  Independent of memory and pointers.
-/

namespace Pico.Spec

/-- What an object is for its user. -/
inductive Has (α : Type) (d : Nat) (β S : Type) where
  /-- not constructed, or destroyed -/
  | absent
  /-- its contents were moved away -/
  | moved
  | holds (D : TreeData α d β) (space : S)

section
variable {α : Type} [LT α] [LE α] [DecidableLT α] [DecidableLE α] [Add α] [Sub α] {d : Nat} {β S : Type}

/-- What a program may do: construct objects that do not exist, move and destroy those that do.  It does not assign a
tree to itself, unless the tree was moved away (as in `std::swap(x, x)`).  It may assign to an object that holds a
tree. -/
def MayDo (P : Platform α) (branch : Codec β) (st : Nat → Has α d β S) : TreeOp α d β S → Prop
  | .build a _ C n bounds fuel => st a = .absent ∧ ∃ D, buildTree C n bounds fuel = .ok D
  | .load a _ fuel bytes => st a = .absent ∧ ∃ D rest, loadStatic P branch d fuel bytes = .ok D rest
  | .moveConstruct a b => st a = .absent ∧ st b ≠ .absent
  | .moveAssign a b => st a ≠ .absent ∧ st b ≠ .absent ∧ (a = b → st a = .moved)
  | .destroy a => st a ≠ .absent

/-- The objects after an operation; `thrown` tells if it threw. -/
def after (P : Platform α) (branch : Codec β) (st : Nat → Has α d β S) (thrown : Bool) :
    TreeOp α d β S → Nat → Has α d β S
  | .build a space C n bounds fuel =>
    match thrown, buildTree C n bounds fuel with
    | false, .ok D => Function.update st a (.holds D space)
    | _, _ => st
  | .load a space fuel bytes =>
    match thrown, loadStatic P branch d fuel bytes with
    | false, .ok D _ => Function.update st a (.holds D space)
    | _, _ => st
  | .moveConstruct a b => Function.update (Function.update st b .moved) a (st b)
  | .moveAssign a b => Function.update (Function.update st b .moved) a (st b)
  | .destroy a => Function.update st a .absent

/-- The chunks nobody points to any more after the operation: those of the tree that is assigned to. -/
def losesChunks (w : World α d β S) : TreeOp α d β S → List Nat
  | .moveAssign a _ =>
    match w.trees a with
    | none => []
    | some o => w.heap.chunks (w.heap.live.length + 1) o.alloc.head
  | _ => []

/-- The states a program can reach: the memory with its objects, what the user thinks of them, and the chunks that were
lost. -/
inductive Reach (M : Malloc) (fails : Nat → Nat → Bool) (cs : Nat) (dyn : Bool) (left : S → S) (P : Platform α)
    (branch : Codec β) : World α d β S → (Nat → Has α d β S) → List Nat → Prop where
  | start : Reach M fails cs dyn left P branch .empty (fun _ => .absent) []
  | step {w w' : World α d β S} {st : Nat → Has α d β S} {lost : List Nat} {op : TreeOp α d β S} {thrown : Bool}
      (h : Reach M fails cs dyn left P branch w st lost) (ok : MayDo P branch st op)
      (e : w.step M fails cs dyn left P branch op = .ok (w', thrown)) :
      Reach M fails cs dyn left P branch w' (after P branch st thrown op) (losesChunks w op ++ lost)

end

end Pico.Spec
