import Verif.Model.PyTree
import Verif.Model.View
import Verif.Model.Gtest
import Verif.Model.Metric

/-!
# The example programs of the library (examples/kd_tree)

What the programs print. A `double` or `float` is a number of a rounding `R`. Opening and removing the file of
kd_tree_save_and_load.cpp is not modelled: the bytes written are the bytes read.
-/

namespace Pico.Examples

open Pico.Gtest

section Arrays
variable {K : Type} [Field K] [LinearOrder K] [IsStrictOrderedRing K]

/-- `data[i] = static_cast<double>(i)` for all `i < n` (kd_tree_dynamic_arrays.cpp:16-19). -/
def scalars (R : Rounding K) (n : Nat) : List R.F := (List.range n).map fun (i : Nat) => R.ofK (i : K)

/-- `data[i][j] = static_cast<double>(i * dim + j)` (kd_tree_dynamic_arrays.cpp:45-51). -/
def points (R : Rounding K) (count dim : Nat) : List (Pt R.F dim) :=
  (List.range count).map fun (i : Nat) (j : Fin dim) => R.ofK ((i * dim + j : Nat) : K)

/-- The coordinates that a `point_map` shows (map.hpp:26-58); `none`: some of them are outside of the memory. -/
def viewPoint {τ : Type} (v : MapView τ) (d : Nat) : Option (Pt τ d) :=
  if h : ∀ j : Fin d, (v.get j).isSome = true then some fun j => (v.get j).get (h j) else none

/-- `tree.search_nn(query, nn)` and the index printed, for a tree that was just built. -/
def closest {α : Type} [LT α] [LE α] [DecidableLT α] [DecidableLE α] [Zero α] [Add α] [Sub α] {d : Nat} {β : Type}
    (tag : SpaceTag α d β) (M : Metric α d) (N : Num α) (pts : Nat → Pt α d) (n : Nat) (o : BuildOpts α d) (q : Pt α d)
    (nn : Neighbor α) (fuel : Nat) : Outcome Nat :=
  (KdTree.make tag M N pts n o fuel).bind fun T => .ok (T.searchNn q nn).index

/-- `array_of_scalars` (kd_tree_dynamic_arrays.cpp:10-38), for any number of points, dimension (`Dim`: as far as it is
known at compile time), leaf size and index of the query. -/
def arrayOfScalars (R : Rounding K) (N : Num R.F) (S : Std) (Dim : Option Nat) (count dim leaf index : Nat)
    (nn : Neighbor R.F) (fuel : Nat) : Outcome Nat :=
  let data := scalars R (count * dim)
  let map := SpaceMap.mk' Dim data 0 count dim true
  match map.points, viewPoint (.ofSize Dim data ((index * dim : Nat) : Int) dim) map.sdim with
  | some pts, some q => closest (euclideanTag R.F map.sdim) (metricL2Sq R.F map.sdim) N pts map.size
      ⟨S, .sliding, .maxLeafSize leaf, .fromSpace, 32⟩ q nn fuel
  | _, _ => .ub

/-- `array_of_points` (kd_tree_dynamic_arrays.cpp:40-65). A point outside of the array is undefined behaviour. -/
def arrayOfPoints (R : Rounding K) (N : Num R.F) (S : Std) (count dim leaf index : Nat) (nn : Neighbor R.F)
    (fuel : Nat) : Outcome Nat :=
  let data := points R count dim
  let map := pointsMap data 0 count
  match data[index]? with
  | some q =>
    if ∀ i < map.size, (map.get i).isSome = true then
      closest (euclideanTag R.F dim) (metricL2Sq R.F dim) N (fun i => (map.get i).getD fun _ => 0) map.size
        ⟨S, .sliding, .maxLeafSize leaf, .fromSpace, 32⟩ q nn fuel
    else .ub
  | none => .ub

end Arrays

/-- `make_point_set` (kd_tree_creation.cpp:47; the same points in kd_tree_minimal.cpp:13-14,
kd_tree_save_and_load.cpp:15-16, kd_tree_custom_point_type.cpp:36). -/
def pointSet : Nat → Pt (ieee 23 (-149)).F 3
  | 0 => ![lit 0, lit 1, lit 2]
  | _ => ![lit 3, lit 4, lit 5]

/-- The query of the same programs (kd_tree_creation.cpp:40). -/
def query : Pt (ieee 23 (-149)).F 3 := ![lit 4, lit 4, lit 4]

/-- The programs of kd_tree_minimal.cpp:11-29 and kd_tree_custom_point_type.cpp:35-48. -/
def minimal (N : Num (ieee 23 (-149)).F) (S : Std) (nn : Neighbor (ieee 23 (-149)).F) (fuel : Nat) : Outcome Nat :=
  closest (euclideanTag _ 3) (metricL2Sq _ 3) N pointSet 2 ⟨S, .sliding, .maxLeafSize 12, .fromSpace, 32⟩ query nn fuel

/-- One line of output after the other. -/
def runAll : List (Outcome Nat) → Outcome (List Nat)
  | [] => .ok []
  | x :: xs => x.bind fun a => (runAll xs).bind fun as => .ok (a :: as)

/-- `construction_algorithm_parameters` (kd_tree_creation.cpp:125-167). -/
def parameters (S : Std) : List (BuildOpts (ieee 23 (-149)).F 3) :=
  [⟨S, .sliding, .maxLeafSize 1, .fromSpace, 32⟩,
    ⟨S, .sliding, .maxLeafDepth 0, .fromSpace, 32⟩,
    ⟨S, .sliding, .maxLeafSize 1, .given ![lit 0, lit 0, lit 0] ![lit 9, lit 9, lit 9], 32⟩,
    ⟨S, .median, .maxLeafSize 1, .fromSpace, 32⟩]

/-- The program of kd_tree_creation.cpp:169-176: `construction_algorithm_parameters`, `space_type_deduction` (:96-123),
`build_kd_tree_with_data_reference` (:77-92), `build_kd_tree_with_data_move` (:61-72) and
`build_kd_tree_with_data_copy` (:51-57). A tree has the same points whether they are copied, moved or referred to. -/
def creation (N : Num (ieee 23 (-149)).F) (S : Std) (nn : Neighbor (ieee 23 (-149)).F) (fuel : Nat) :
    Outcome (List Nat) :=
  let run := fun M o => closest (euclideanTag _ 3) M N pointSet 2 o query nn fuel
  let twelve : BuildOpts (ieee 23 (-149)).F 3 := ⟨S, .sliding, .maxLeafSize 12, .fromSpace, 32⟩
  runAll ((parameters S).map (run (metricL2Sq _ 3)) ++
    [run (metricL2Sq _ 3) twelve, run (metricLPInf _ 3) twelve] ++
    [run (metricL2Sq _ 3) twelve, run (metricL2Sq _ 3) twelve] ++
    [run (metricL2Sq _ 3) twelve, run (metricL2Sq _ 3) twelve] ++ [run (metricL2Sq _ 3) twelve])

/-- The program of kd_tree_save_and_load.cpp:14-37. -/
def saveAndLoad (N : Num (ieee 23 (-149)).F) (P : Platform (ieee 23 (-149)).F) (pad : Nat → Byte) (S : Std)
    (nn : Neighbor (ieee 23 (-149)).F) (fuel : Nat) : Call Nat :=
  (Call.ofOutcome (KdTree.make (euclideanTag _ 3) (metricL2Sq _ 3) N pointSet 2
      ⟨S, .sliding, .maxLeafSize 12, .fromSpace, 32⟩ fuel)).bind fun T =>
    (Call.ofLoad (KdTree.load P (P.branch1 3) (euclideanTag _ 3) (metricL2Sq _ 3) N pointSet 2 fuel
      (T.save pad P (P.branch1 3) []))).bind fun T' => .ok (T'.searchNn query nn).index

/-- The points of kd_tree_custom_space_type.cpp:42-43; the traits of the deque (:11-37) give them back. -/
def dequePoints : Nat → Pt (ieee 23 (-149)).F 2
  | 0 => ![lit 0, lit 1]
  | 1 => ![lit 2, lit 3]
  | _ => ![lit 4, lit 5]

/-- The program of kd_tree_custom_space_type.cpp:41-55. -/
def customSpace (N : Num (ieee 23 (-149)).F) (S : Std) (nn : Neighbor (ieee 23 (-149)).F) (fuel : Nat) : Outcome Nat :=
  closest (euclideanTag _ 2) (metricL2Sq _ 2) N dequePoints 3 ⟨S, .sliding, .maxLeafSize 1, .fromSpace, 32⟩
    ![lit 4, lit 4] nn fuel

end Pico.Examples
