import Verif.SpecTree

/-!
# Specification: a search with a leaf budget
-/

namespace Pico.Spec

/-- `vs` lists the points of some leaves, each leaf once, at most `maxLeaves` of them. A leaf is a range of
`indices`. -/
def LeafVisits (maxLeaves : Nat) (leaves : List (Nat × Nat)) (indices vs : List Nat) : Prop :=
  ∃ Ls : List (Nat × Nat), Ls.Subperm leaves ∧ Ls.length ≤ maxLeaves ∧
    vs = Ls.flatMap fun x => (indices.drop x.1).take (x.2 - x.1)

end Pico.Spec
