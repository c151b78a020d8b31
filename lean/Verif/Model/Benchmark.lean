import Verif.Model.Cover
import Verif.Model.Formats
import Verif.Model.KdTree

/-!
# The benchmarks (examples/benchmark)

Timing is not modelled: one run of the measured loop, which returns `results` and `sum`. `std::size_t` has 64 bits. The
scalar type, the arguments (`state.range`) and the dimension are arbitrary. A `dynamic_space` (pico_toolshed) passes the
points and their number on; the trees over it run the same functions with the dimension in a variable.
-/

namespace Pico.Bench

/-- `operator-=` and `operator-` of `point` (pico_toolshed/point.hpp:38-49). -/
def subScalar {α : Type} [Sub α] {d : Nat} (p : Pt α d) (v : α) : Pt α d := fun i => p i - v

/-- `operator+=` and `operator+` of `point` (pico_toolshed/point.hpp:25-36). -/
def addScalar {α : Type} [Add α] {d : Nat} (p : Pt α d) (v : α) : Pt α d := fun i => p i + v

/-- `points_tree_` and `points_test_` (benchmark.hpp:35-36). -/
structure Benchmark (α : Type) (d : Nat) where
  pointsTree : List (Pt α d)
  pointsTest : List (Pt α d)

/-- The constructor of `Benchmark` (benchmark.hpp:27-32); the files `scans0.bin` and `scans1.bin` are arguments. -/
def Benchmark.make {α : Type} {d : Nat} (c : Codec (Pt α d)) (scans0 scans1 : Option (List Byte)) :
    Load (Benchmark α d) :=
  (readBin c scans0).bind fun tree _ => (readBin c scans1).bind fun test rest => .ok ⟨tree, test⟩ rest

/-- Element of a vector of points. -/
def at' {α : Type} [Zero α] {d : Nat} (v : List (Pt α d)) (i : Nat) : Pt α d := v.getD i fun _ => 0

/-- `for (auto const& p : points_test_) { search(p, results); sum += results.size(); }`
(bm_pico_kd_tree.cpp:73-76, 123-126, 162-167, 194-199). -/
def counted {ρ π : Type} (search : π → List ρ → Outcome (List ρ)) : List π → List ρ × Nat → Outcome (List ρ × Nat)
  | [], s => .ok s
  | p :: ps, s => (search p s.1).bind fun out => counted search ps (out, (s.2 + out.length) % 2 ^ 64)

/-- The loop over groups of test points (bm_pico_cover_tree.cpp:51-62); `fuel` bounds the number of groups. -/
def grouped {ρ π : Type} (search : π → List ρ → Outcome (List ρ)) (group : Nat) (test : List π) :
    Nat → Nat → List ρ × Nat → Outcome (List ρ × Nat)
  | 0, _, _ => .oof
  | fuel + 1, pi, s =>
    if pi < test.length then
      (counted search (slice test pi (min (pi + group) test.length)) s).bind
        (grouped search group test fuel (min (pi + group) test.length))
    else .ok s

section
variable {α : Type} [LT α] [LE α] [DecidableLT α] [DecidableLE α] [Zero α] [Add α] [Sub α] {d : Nat}

/-- `pico_kd_tree_ct_sld_mid tree(points_tree_, max_leaf_size)` (bm_pico_kd_tree.cpp:21, 34, 68), metric
`metric_l2_squared`. -/
def tree [Mul α] (N : Num α) (S : Std) (leaf : Nat) (b : Benchmark α d) (fuel : Nat) :
    Outcome (KdTree α d (Branch1 α d)) :=
  KdTree.make (euclideanTag α d) (metricL2Sq α d) N (at' b.pointsTree) b.pointsTree.length
    ⟨S, .sliding, .maxLeafSize leaf, .fromSpace, 32⟩ fuel

/-- `KnnCtSldMid` (bm_pico_kd_tree.cpp:63-78). -/
def knnCt [Mul α] (N : Num α) (S : Std) (leaf k : Nat) (b : Benchmark α d) (fuel : Nat) :
    Outcome (List (Neighbor α) × Nat) :=
  (tree N S leaf b fuel).bind fun T => counted (fun p results => T.searchKnn p k results) b.pointsTest ([], 0)

/-- `RadiusCtSldMid` (bm_pico_kd_tree.cpp:111-128). -/
def radiusCt [Mul α] (N : Num α) (S : Std) (sorter : StdSort (Neighbor α)) (leaf : Nat) (radius : α)
    (b : Benchmark α d) (fuel : Nat) : Outcome (List (Neighbor α) × Nat) :=
  (tree N S leaf b fuel).bind fun T =>
    counted (fun p results => .ok (T.searchRadius sorter p (radius * radius) results false)) b.pointsTest ([], 0)

/-- `BoxCtSldMid` and `BoxRtSldMid` (bm_pico_kd_tree.cpp:151-169, 182-201). -/
def boxCt [Mul α] (N : Num α) (S : Std) (leaf : Nat) (radius : α) (b : Benchmark α d) (fuel : Nat) :
    Outcome (List Nat × Nat) :=
  (tree N S leaf b fuel).bind fun T =>
    counted (fun p results => .ok (T.searchBox (subScalar p radius) (addScalar p radius) results)) b.pointsTest ([], 0)

/-- `KnnCt` of the cover tree (bm_pico_cover_tree.cpp:41-64); `indices` is the random order of the points. -/
def coverKnn {L : Type} (B : Leveling α L) (P : StdPart (CNode L Unit)) (M : Metric α d) (N : Num α)
    (sorter : StdSort (CNode L α × α)) (indices : List Nat) (k : Nat) (b : Benchmark α d) (fuel : Nat) :
    Outcome (List (Neighbor α) × Nat) :=
  (CoverTree.make B P M N (at' b.pointsTree) b.pointsTree.length indices fuel).bind fun T =>
    grouped (fun p results => T.searchKnn sorter fuel p k results) 4000 b.pointsTest fuel 0 ([], 0)

end

end Pico.Bench
