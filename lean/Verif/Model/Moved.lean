import Verif.Model.KdTree

/-!
# Points that change after the construction
-/

namespace Pico

/-- A tree whose points were changed after the construction. `space_` is a reference wrapper, a view or an array of
Python (kd_tree.hpp:56-66, 410-411; _pyco_tree/kd_tree.hpp:88-92), so that the searches see the points of now; `data_`
stays what it was (kd_tree.hpp:414-415). -/
def KdTree.moved {α : Type} {d : Nat} {β : Type} (T : KdTree α d β) (pts : Nat → Pt α d) : KdTree α d β :=
  { T with pts := pts }

end Pico
