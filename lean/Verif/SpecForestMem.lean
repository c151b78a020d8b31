import Verif.Model.ForestMem

/-!
# Specification vocabulary for forests that are moved

What a user thinks of an object of the class `kd_forest`: it does not exist, or it is a list of trees (empty after its
contents were moved away).  Independent of memory and pointers.
-/

namespace Pico.Spec

section
variable {α : Type} [LT α] [LE α] [DecidableLT α] [DecidableLE α] [Zero α] [One α] [Add α] [Sub α] [Mul α] {d : Nat}

/-- The trees of a new forest: one for each vector drawn, built from the points reflected by it. -/
def Grown (S : Std) (N : Num α) (pts : Nat → Pt α d) (n indexBits maxLeafSize fuel : Nat) (rotations : List (Pt α d))
    (ts : List (RotTree α d)) : Prop :=
  List.Forall₂ (fun r t => Forest.makeTree S N pts n indexBits maxLeafSize fuel r = .ok t) rotations ts

/-- What a program may do: construct forests that do not exist, of at least one point and with a leaf size the index
type can hold, if the construction of the trees ends; move and destroy those that exist. -/
def FMayDo (S : Std) (st : Nat → Option (List (RotTree α d))) : ForestOp α d → Prop
  | .make f N pts n indexBits maxLeafSize fuel rotations =>
    st f = none ∧ 0 < n ∧ 1 ≤ maxLeafSize ∧ maxLeafSize < 2 ^ (indexBits - 1) ∧
      ∃ ts, Grown S N pts n indexBits maxLeafSize fuel rotations ts
  | .moveConstruct f g => st f = none ∧ st g ≠ none
  | .moveAssign f g => st f ≠ none ∧ st g ≠ none
  | .destroy f => st f ≠ none

/-- The forests after an operation; `thrown` tells if it threw.  A move leaves no tree behind; a forest that is assigned
to itself has none afterwards. -/
def FAfter (S : Std) (st : Nat → Option (List (RotTree α d))) (thrown : Bool) :
    ForestOp α d → (Nat → Option (List (RotTree α d))) → Prop
  | .make f N pts n indexBits maxLeafSize fuel rotations, st' =>
    if thrown then st' = st
    else ∃ ts, Grown S N pts n indexBits maxLeafSize fuel rotations ts ∧ st' = Function.update st f (some ts)
  | .moveConstruct f g, st' => st' = Function.update (Function.update st g (some [])) f (st g)
  | .moveAssign f g, st' => st' = Function.update (Function.update st f (st g)) g (some [])
  | .destroy f, st' => st' = Function.update st f none

/-- The states a program can reach: the memory with its forests, and what the user thinks of them. -/
inductive FReach (M : Malloc) (fails : Nat → Nat → Bool) (cs : Nat) (dyn : Bool) (left : Rot α d → Rot α d)
    (P : Platform α) (branch : Codec (Branch2 α d)) (S : Std) :
    ForestWorld α d → (Nat → Option (List (RotTree α d))) → Prop where
  | start : FReach M fails cs dyn left P branch S .empty fun _ => none
  | step {u u' : ForestWorld α d} {st st' : Nat → Option (List (RotTree α d))} {op : ForestOp α d} {thrown : Bool}
      (h : FReach M fails cs dyn left P branch S u st) (ok : FMayDo S st op)
      (e : u.step M fails cs dyn left P branch S op = .ok (u', thrown)) (ha : FAfter S st thrown op st') :
      FReach M fails cs dyn left P branch S u' st'

end

end Pico.Spec
