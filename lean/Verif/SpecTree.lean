import Verif.Model.Tree
import Mathlib.Order.Lattice

/-!
# Vocabulary for statements about the shape of a tree
-/

namespace Pico.Spec

variable {β : Type}

/-- The leaves from left to right, each with its depth (the root has depth 0) and index range. -/
def leavesFrom : Nat → Tree β → List (Nat × Nat × Nat)
  | depth, .leaf b e => [(depth, b, e)]
  | depth, .branch _ l r => leavesFrom (depth + 1) l ++ leavesFrom (depth + 1) r

/-- The leaves of a whole tree with their depths. -/
def leaves (t : Tree β) : List (Nat × Nat × Nat) := leavesFrom 0 t

/-- The index ranges of the leaves. -/
def ranges (t : Tree β) : List (Nat × Nat) := (leaves t).map Prod.snd

/-- The ranges follow each other without gap or overlap from `a` to `b`. -/
def Tiles : Nat → List (Nat × Nat) → Nat → Prop
  | a, [], b => a = b
  | a, (x, y) :: l, b => x = a ∧ x ≤ y ∧ Tiles y l b

/-- Number of nodes. -/
def nodes : Tree β → Nat
  | .leaf _ _ => 1
  | .branch _ l r => nodes l + nodes r + 1

/-- Number of points below a node. -/
def size : Tree β → Nat
  | .leaf b e => e - b
  | .branch _ l r => size l + size r

/-- Length of the longest path from the root to a leaf. -/
def height : Tree β → Nat
  | .leaf _ _ => 0
  | .branch _ l r => max (height l) (height r) + 1

/-- Sum of the sizes of all nodes: how often a construction that looks once at every point of every
node looks at a point. -/
def visits : Tree β → Nat
  | .leaf b e => e - b
  | .branch _ l r => size l + size r + visits l + visits r

/-- At every branch the sizes of the children differ by at most one. -/
def Balanced : Tree β → Prop
  | .leaf _ _ => True
  | .branch _ l r => size l ≤ size r + 1 ∧ size r ≤ size l + 1 ∧ Balanced l ∧ Balanced r

end Pico.Spec
