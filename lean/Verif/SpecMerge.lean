import Verif.Spec

/-! # Points that are divided over several trees -/

namespace Pico.Spec

/-- Neighbor `x` in the part with the points `idx 0`, `idx 1`, … as a neighbor in the whole set. -/
def renumber {α : Type} (idx : List Nat) (x : Neighbor α) : Neighbor α := ⟨idx.getD x.index 0, x.distance⟩

/-- Each of the `n` points belongs to exactly one part, and no part is empty. -/
structure IsPartition (n : Nat) (parts : List (List Nat)) : Prop where
  once : parts.flatten.Perm (List.range n)
  nonempty : ∀ idx ∈ parts, idx ≠ []

end Pico.Spec
