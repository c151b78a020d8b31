import Verif.Model.Counter
import Verif.Model.Gtest
import Verif.Model.KdTree

/-!
# The example programs with random points (examples/kd_tree)

The points that `generate_random_n` (pico_toolshed/point.hpp) makes are arguments; the theorems hold for all points
between the borders given to it. The number of points is an argument as well. Times and headings are not modelled.
-/

namespace Pico.Examples

open Pico.Gtest

section
variable {α : Type} {d : Nat}

/-- The loop that prints index, distance and coordinates of the neighbors (kd_tree_search.cpp:96-100,
kd_tree_custom_metric.cpp:121-125); `tree.space()[nn.index]` reads a vector of `n` points. -/
def printed (pts : Nat → Pt α d) (n : Nat) (l : List (Neighbor α)) : Outcome (List (Nat × α × Pt α d)) :=
  if l.all fun x => decide (x.index < n) then .ok (l.map fun x => (x.index, x.distance, pts x.index)) else .ub

variable [LT α] [LE α] [DecidableLT α] [DecidableLE α] [Zero α] [Add α] [Sub α]

/-- A tree with the default rule, then `search_knn(q, knn.begin(), knn.end())` and the output. -/
def neighbors {β : Type} (tag : SpaceTag α d β) (M : Metric α d) (N : Num α) (S : Std) (leaf : Nat)
    (pts : Nat → Pt α d) (n : Nat) (q : Pt α d) (knn : List (Neighbor α)) (fuel : Nat) :
    Outcome (List (Nat × α × Pt α d)) :=
  (KdTree.make tag M N pts n ⟨S, .sliding, .maxLeafSize leaf, .fromSpace, 32⟩ fuel).bind fun T =>
    (T.searchKnnRange q knn).bind (printed pts n)

end

/-- A `for` loop that only counts its runs. -/
def repeated {σ : Type} (body : σ → Outcome σ) : Nat → σ → Outcome σ
  | 0, s => .ok s
  | k + 1, s => (body s).bind (repeated body k)

/-- The variables `nn`, `knn` and `idxs` of `search_r3` (kd_tree_search.cpp:42-44). -/
structure Variables (α : Type) where
  nn : Neighbor α
  knn : List (Neighbor α)
  idxs : List Nat

/-- The query of `search_r3`, all coordinates of which are `(max_v + min_v) / 2.0f` (kd_tree_search.cpp:22-27). -/
def centre : Pt (ieee 23 (-149)).F 3 := fun _ => (lit (379 / 10) + lit (251 / 10)) / lit 2

/-- Body of the first loop of `search_r3` (kd_tree_search.cpp:48-53); `search_radius_metric` is line 32. -/
def searchAll {β : Type} (sorter : StdSort (Neighbor (ieee 23 (-149)).F)) (T : KdTree (ieee 23 (-149)).F 3 β)
    (s : Variables (ieee 23 (-149)).F) : Outcome (Variables (ieee 23 (-149)).F) :=
  (T.searchKnn centre 1 s.knn).bind fun knn => .ok
    { nn := T.searchNn centre s.nn
      knn := T.searchRadius sorter centre (T.metric.one (lit 2)) knn false
      idxs := T.searchBox (fun _ => lit (251 / 10)) (fun _ => lit (379 / 10)) s.idxs }

/-- `search_r3` (kd_tree_search.cpp:7-74): the variables after the first loop, and `knn` after the second and the third.
The number of runs is an argument; `max_error_ratio_metric` is line 37. -/
def searchR3 (N : Num (ieee 23 (-149)).F) (S : Std) (sorter : StdSort (Neighbor (ieee 23 (-149)).F))
    (random : Nat → Pt (ieee 23 (-149)).F 3) (n runs : Nat) (nn : Neighbor (ieee 23 (-149)).F) (fuel : Nat) :
    Outcome (Variables (ieee 23 (-149)).F × List (Neighbor (ieee 23 (-149)).F) × List (Neighbor (ieee 23 (-149)).F)) :=
  (KdTree.make (euclideanTag _ 3) (metricL2Sq _ 3) N random n ⟨S, .sliding, .maxLeafSize 12, .fromSpace, 32⟩ fuel).bind
    fun T => (repeated (searchAll sorter T) runs ⟨nn, [], []⟩).bind fun s =>
    (repeated (T.searchKnnApprox centre 8 (T.metric.one (lit 1 + lit (1 / 5)))) runs s.knn).bind fun aknn =>
    (repeated (T.searchKnn centre 8) runs aknn).bind fun knn => .ok (s, aknn, knn)

/-- `search_s1` (kd_tree_search.cpp:80-101). -/
def searchS1 (N : Num (ieee 23 (-149)).F) (S : Std) (random : Nat → Pt (ieee 23 (-149)).F 1) (n : Nat)
    (knn : List (Neighbor (ieee 23 (-149)).F)) (fuel : Nat) :
    Outcome (List (Nat × (ieee 23 (-149)).F × Pt (ieee 23 (-149)).F 1)) :=
  neighbors (topologicalTag _ 1) (metricSO2 _) N S 10 random n ![lit 1] knn fuel

/-- `search_t2` (kd_tree_custom_metric.cpp:101-126). -/
def searchT2 (N : Num (ieee 23 (-149)).F) (S : Std) (random : Nat → Pt (ieee 23 (-149)).F 2) (n : Nat)
    (knn : List (Neighbor (ieee 23 (-149)).F)) (fuel : Nat) :
    Outcome (List (Nat × (ieee 23 (-149)).F × Pt (ieee 23 (-149)).F 2)) :=
  neighbors (topologicalTag _ 2) (metricT2Sq _ 2) N S 12 random n ![lit 1, lit 1] knn fuel

/-- `metric_lp_p` (kd_tree_custom_metric.cpp:18-43) with what `std::pow(x, P)` computes. -/
def metricPow {α : Type} [LT α] [DecidableLT α] [Zero α] [Add α] [Sub α] [Neg α] (pow : α → α) (d : Nat) :
    Metric α d where
  dist x y := loopSum fun i => pow (sabs (x i - y i))
  one x := pow (sabs x)
  space _ := .r1

/-- `search_lp3_3` (kd_tree_custom_metric.cpp:80-99). -/
def searchLp3 (pow : (ieee 23 (-149)).F → (ieee 23 (-149)).F) (N : Num (ieee 23 (-149)).F) (S : Std)
    (random : Nat → Pt (ieee 23 (-149)).F 2) (n : Nat) (nn : Neighbor (ieee 23 (-149)).F) (fuel : Nat) : Outcome Nat :=
  (KdTree.make (euclideanTag _ 2) (metricPow pow 2) N random n ⟨S, .sliding, .maxLeafSize 12, .fromSpace, 32⟩ fuel).bind
    fun T => .ok (T.searchNn ![lit 10 / lit 2, lit 10 / lit 2] nn).index

/-- The program of kd_tree_custom_search_visitor.cpp:47-70. -/
def visited (N : Num (ieee 23 (-149)).F) (S : Std) (random : Nat → Pt (ieee 23 (-149)).F 2) (n : Nat)
    (nn : Neighbor (ieee 23 (-149)).F) (fuel : Nat) : Outcome Nat :=
  (KdTree.make (euclideanTag _ 2) (metricL2Sq _ 2) N random n ⟨S, .sliding, .maxLeafSize 12, .fromSpace, 32⟩ fuel).bind
    fun T => .ok (T.searchNearest ![lit 1000 / lit 2, lit 1000 / lit 2] counterVisitor (counterInit T.num nn)).1

end Pico.Examples
