import Verif.Model.CoverMem

/-!
# Cover trees in memory
-/

namespace Pico.Spec

open CoverMem

variable {α L γ : Type}

mutual
/-- The node at `p`, its children, and so on are the nodes of the tree. The list holds their addresses depth
first. `same` relates the recorded distances. -/
def Stored (same : α → γ → Prop) (m : Mem α L) : CNode L γ → Ptr → List Ptr → Prop
  | .node i l g cs, p, f => ∃ c fs, m p = some c ∧ c.index = i ∧ c.level = l ∧ same c.maxDistance g ∧
      StoredList same m cs c.children fs ∧ f = p :: fs

/-- The pointers point at the trees. -/
def StoredList (same : α → γ → Prop) (m : Mem α L) : List (CNode L γ) → List Ptr → List Ptr → Prop
  | [], ps, f => ps = [] ∧ f = []
  | c :: cs, ps, f => ∃ q qs g gs, ps = q :: qs ∧ Stored same m c q g ∧ StoredList same m cs qs gs ∧ f = g ++ gs
end

end Pico.Spec
