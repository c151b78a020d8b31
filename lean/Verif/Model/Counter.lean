import Verif.Model.Visitor

/-!
# The custom visitor of the examples (examples/kd_tree/kd_tree_custom_search_visitor.cpp)
-/

namespace Pico

/-- `search_nn_counter` (examples/kd_tree/kd_tree_custom_search_visitor.cpp:10-45): the state is `count_` and the
referenced neighbor. -/
def counterVisitor {α : Type} [LT α] [DecidableLT α] : Visitor α (Nat × Neighbor α) where
  visit s idx dst := (s.1 + 1, if s.2.distance > dst then ⟨idx, dst⟩ else s.2)
  max s := s.2.distance

/-- The constructor (examples/kd_tree/kd_tree_custom_search_visitor.cpp:18-21). -/
def counterInit {α : Type} (N : Num α) (nn : Neighbor α) : Nat × Neighbor α := (0, { nn with distance := N.big })

end Pico
