import Verif.Model.Cover

/-!
# Specification vocabulary for cover trees
-/

namespace Pico.Spec
variable {L γ : Type}

mutual
/-- The points of the nodes of a cover tree, in depth first order. -/
def points : CNode L γ → List Nat
  | .node i _ _ cs => i :: pointsList cs

/-- The points of a list of cover trees. -/
def pointsList : List (CNode L γ) → List Nat
  | [] => []
  | c :: cs => points c ++ pointsList cs
end

mutual
/-- `p` holds for every node of the tree. -/
def Everywhere (p : CNode L γ → Prop) : CNode L γ → Prop
  | .node i l m cs => p (.node i l m cs) ∧ EverywhereList p cs

/-- `p` holds for every node of every tree of the list. -/
def EverywhereList (p : CNode L γ → Prop) : List (CNode L γ) → Prop
  | [] => True
  | c :: cs => Everywhere p c ∧ EverywhereList p cs
end

/-- The covering distance of a level: a power of the base, zero for level minus infinity. -/
def coverDistance {K : Type} [Field K] (base : K) : WithBot ℤ → K
  | none => 0
  | some n => base ^ n

/-- `cl` and `fl` are the logarithms rounded up and rounded down. -/
def IsLogs {K : Type} [Field K] [LinearOrder K] (base : K) (cl fl : K → ℤ) : Prop :=
  ∀ d, 0 < d → base ^ (cl d - 1) < d ∧ d ≤ base ^ cl d ∧ base ^ fl d ≤ d ∧ d < base ^ (fl d + 1)

/-- The node and every node below it is one level below its parent. -/
def LevelsDescend (c : CNode (WithBot ℤ) γ) : Prop :=
  Everywhere (fun c => ∀ m ∈ c.children, m.level = c.level.map (· - 1)) c

/-- The children of every node are further apart than the covering distance of their level. -/
def SiblingsApart {K : Type} [Field K] [LinearOrder K] (base : K) (dist : Nat → Nat → K)
    (c : CNode (WithBot ℤ) γ) : Prop :=
  Everywhere (fun c => c.children.Pairwise fun a b => coverDistance base a.level < dist a.index b.index) c

/-- Every point below a node is within the covering distance of the node. -/
def Covers {K : Type} [Field K] [LinearOrder K] (base : K) (dist : Nat → Nat → K)
    (c : CNode (WithBot ℤ) γ) : Prop :=
  Everywhere (fun c => ∀ p ∈ points c, dist c.index p ≤ coverDistance base c.level) c

/-- Every point below a child of a node is at least as close to that child as to the other children. -/
def NearestAncestor {K : Type} [LinearOrder K] (dist : Nat → Nat → K) (c : CNode L γ) : Prop :=
  Everywhere (fun c => ∀ a ∈ c.children, ∀ b ∈ c.children, ∀ p ∈ points a, dist a.index p ≤ dist b.index p) c

end Pico.Spec
