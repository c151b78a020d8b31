import Verif.Model.Box
import Verif.Model.Std

/-!
# Tree nodes and tree data (internal/kd_tree_node.hpp, internal/kd_tree_data.hpp)
-/

namespace Pico

/-- `kd_tree_branch_single` (kd_tree_node.hpp:43-50). -/
structure Branch1 (α : Type) (d : Nat) where
  splitDim : Fin d
  leftMax : α
  rightMin : α

/-- `kd_tree_branch_double` (kd_tree_node.hpp:56-67). -/
structure Branch2 (α : Type) (d : Nat) where
  splitDim : Fin d
  leftMin : α
  leftMax : α
  rightMin : α
  rightMax : α

/-- A node with its descendants (kd_tree_node.hpp:7-40, 73-79).  A leaf has two null children and
stores `begin_idx`, `end_idx`; a branch has two non-null children and branch data. -/
inductive Tree (β : Type) where
  | leaf (beginIdx endIdx : Nat)
  | branch (data : β) (left right : Tree β)

/-- `kd_tree_node_euclidean::set_branch` (kd_tree_node.hpp:87-92). -/
def setBranchEuclidean {α : Type} {d : Nat} (left right : Box α d) (dim : Fin d) : Branch1 α d where
  splitDim := dim
  leftMax := left.max dim
  rightMin := right.min dim

/-- `kd_tree_node_topological::set_branch` (kd_tree_node.hpp:106-113). -/
def setBranchTopological {α : Type} {d : Nat} (left right : Box α d) (dim : Fin d) :
    Branch2 α d where
  splitDim := dim
  leftMin := left.min dim
  leftMax := left.max dim
  rightMin := right.min dim
  rightMax := right.max dim

/-- `kd_tree_data` without the allocator (kd_tree_data.hpp:66-73). -/
structure TreeData (α : Type) (d : Nat) (β : Type) where
  indices : List Nat
  rootBox : Box α d
  root : Tree β

/-- The range `[begin + b, begin + e)` of a vector. -/
def slice {τ : Type} (l : List τ) (b e : Nat) : List τ := (l.drop b).take (e - b)

/-- `insert_leaf_range` (kd_tree_data.hpp:76-87).  A leaf that is not reported (an empty one) falls
into the else branch, which follows its null children: undefined behaviour. -/
def insertLeafRange {β : Type} : Tree β → List (Nat × Nat) → Outcome (List (Nat × Nat))
  | .leaf b e, ranges => if b ≠ e then .ok (ranges ++ [(b, e)]) else .ub
  | .branch _ l r, ranges => (insertLeafRange l ranges).bind (insertLeafRange r)

/-- `leaf_ranges` (kd_tree_data.hpp:60-64, kd_tree.hpp:325-327). -/
def TreeData.leafRanges {α : Type} {d : Nat} {β : Type} (t : TreeData α d β) :
    Outcome (List (Nat × Nat)) :=
  insertLeafRange t.root []

end Pico
