import Verif.Model.Basic
import Mathlib.Algebra.Order.Field.Basic
import Mathlib.Algebra.Order.BigOperators.Group.Finset
import Mathlib.Algebra.BigOperators.Group.Finset.Basic
import Mathlib.Data.Fintype.BigOperators
import Mathlib.Data.List.Sort

/-!
# Specifications

Brute force descriptions of what the queries should return.  They mention points, distances and the
shared result type `Neighbor` only; nothing about trees, visitors or traversal.
-/

namespace Pico.Spec

section Order
variable {α : Type} [LinearOrder α]

/-- `r` is a nearest neighbor among the points `0, ..., n-1` with distances `dist`. -/
structure IsNN (n : Nat) (dist : Nat → α) (r : Neighbor α) : Prop where
  valid : r.index < n
  distance : r.distance = dist r.index
  nearest : ∀ j < n, r.distance ≤ dist j

/-- All points with their distances. -/
def all (n : Nat) (dist : Nat → α) : List (Neighbor α) := (List.range n).map fun i => ⟨i, dist i⟩

/-- `out` lists `min k n` nearest neighbors in order: it is sorted, it can be completed to a list of
all points (so it has no duplicates and its distances are the true ones), and nothing left out is
closer than anything listed. -/
structure IsKnn (n k : Nat) (dist : Nat → α) (out : List (Neighbor α)) : Prop where
  length : out.length = min k n
  sorted : out.Pairwise fun a b => a.distance ≤ b.distance
  rest : ∃ rest, (out ++ rest).Perm (all n dist) ∧
    ∀ a ∈ out, ∀ b ∈ rest, a.distance ≤ b.distance

/-- `out` lists exactly the points at distance `< r`, each once, with true distances. -/
def IsRadius (n : Nat) (dist : Nat → α) (r : α) (out : List (Neighbor α)) : Prop :=
  out.Perm ((all n dist).filter fun x => decide (x.distance < r))

/-- `out` lists exactly the points satisfying `p`, each once. -/
def IsSelection (n : Nat) (p : Nat → Prop) (out : List Nat) : Prop :=
  out.Nodup ∧ ∀ i, i ∈ out ↔ i < n ∧ p i

/-- The `k` smallest distances in order. -/
def smallest (n k : Nat) (dist : Nat → α) : List α :=
  (((List.range n).map dist).mergeSort (fun a b => decide (a ≤ b))).take k

end Order

section Approximate
variable {α : Type} [Field α] [LinearOrder α]

/-- `min k n` sorted, distinct, genuine neighbors (stored distances are divided by `e`), whose true
distances are position by position within the factor `e` of the smallest ones. -/
structure IsApproxKnn (n k : Nat) (dist : Nat → α) (e : α) (out : List (Neighbor α)) : Prop where
  length : out.length = min k n
  sorted : out.Pairwise fun a b => a.distance ≤ b.distance
  distinct : (out.map Neighbor.index).Nodup
  genuine : ∀ a ∈ out, a.index < n ∧ a.distance * e = dist a.index
  ratio : ∀ i (hi : i < out.length) (hi' : i < (smallest n k dist).length),
    dist out[i].index ≤ e * (smallest n k dist)[i]

/-- Points closer than `r`, at most once each, among them all points closer than `r / e`; stored
distances are divided by `e`. -/
structure IsApproxRadius (n : Nat) (dist : Nat → α) (r e : α) (out : List (Neighbor α)) : Prop where
  distinct : (out.map Neighbor.index).Nodup
  sound : ∀ a ∈ out, a.index < n ∧ a.distance * e = dist a.index ∧ dist a.index < r
  complete : ∀ i < n, dist i < r / e → ∃ a ∈ out, a.index = i

end Approximate

section Metrics
variable {K : Type} [CommRing K] [LinearOrder K] {d : Nat}

/-- Manhattan distance. -/
def l1 (x y : Fin d → K) : K := ∑ j, |x j - y j|

/-- Squared Euclidean distance. -/
def l2Sq (x y : Fin d → K) : K := ∑ j, (x j - y j) ^ 2

/-- Distance on the circle of circumference one, coordinates in `[0, 1]`. -/
def circle (a b : K) : K := min |a - b| (1 - |a - b|)

/-- Distance on SE(2): two line coordinates and one circle coordinate. -/
def se2Sq (x y : Fin 3 → K) : K := (x 0 - y 0) ^ 2 + (x 1 - y 1) ^ 2 + circle (x 2) (y 2) ^ 2

end Metrics

end Pico.Spec
