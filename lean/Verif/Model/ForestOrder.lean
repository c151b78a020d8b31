import Verif.Model.Forest

/-!
# The order of the priority search (examples/pico_understory/pico_understory/internal/kd_tree_priority_search.hpp)
-/

namespace Pico

/-- The queue hands out its elements in a fixed order: `std::greater` on pairs compares the pointers when the distances
are equal (internal/kd_tree_priority_search.hpp:135-139). -/
def StdQueue.Ordered {α τ : Type} [LT α] [LE α] [DecidableLT α] [DecidableLE α] (Q : StdQueue α τ) : Prop :=
  ∃ before : α × τ → α × τ → Prop, (∀ x y, before x y → before y x → x = y) ∧
    ∀ l y r, Q.pop l = some (y, r) → ∀ z ∈ r, before y z

/-- The leaf that a descent of the search reaches: the node taken from the queue, then always the first child
(internal/kd_tree_priority_search.hpp:68-127). -/
def priorityLeaf {α : Type} [LT α] [LE α] [DecidableLT α] [DecidableLE α] [Zero α] [Add α] [Sub α] {d : Nat}
    (M : Metric α d) (q : Pt α d) : Tree (Branch2 α d) → Nat × Nat
  | .leaf b e => (b, e)
  | .branch data l r => if (pickPriority M q data).1 then priorityLeaf M q l else priorityLeaf M q r

/-- The nodes taken from the queue, in that order: distance and leaf. The loop of
`priority_search_nearest_euclidean::operator()` (internal/kd_tree_priority_search.hpp:51-63) with a record. -/
def priorityTrace {α : Type} [LT α] [LE α] [DecidableLT α] [DecidableLE α] [Zero α] [Add α] [Sub α] {d : Nat} {σ : Type}
    (Q : StdQueue α (Tree (Branch2 α d))) (M : Metric α d) (q : Pt α d) (V : Visitor α σ) (dist : Nat → α)
    (indices : List Nat) (maxLeaves : Nat) :
    Nat → Nat → σ × List (α × Tree (Branch2 α d)) → List (α × (Nat × Nat))
  | 0, _, _ => []
  | fuel + 1, leavesVisited, st =>
    match Q.pop st.2 with
    | none => []
    | some (top, rest) =>
      if leavesVisited ≥ maxLeaves ∨ V.max st.1 < top.1 then []
      else (top.1, priorityLeaf M q top.2) :: priorityTrace Q M q V dist indices maxLeaves fuel (leavesVisited + 1)
        (priorityDescend M q V dist indices top.2 top.1 (st.1, rest))

end Pico
