import Verif.SpecCover

/-!
# The shape of a cover tree
-/

namespace Pico.Spec

variable {L γ : Type}

mutual
/-- The number of nodes on the longest path down from the root. -/
def levelCount : CNode L γ → Nat
  | .node _ _ _ cs => levelCountList cs + 1

/-- The largest number for a list of trees. -/
def levelCountList : List (CNode L γ) → Nat
  | [] => 0
  | c :: cs => max (levelCount c) (levelCountList cs)
end

/-- No node has more than `k` children. -/
def AtMostChildren (k : Nat) (c : CNode L γ) : Prop := Everywhere (fun c => c.children.length ≤ k) c

end Pico.Spec
