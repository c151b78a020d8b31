import Verif.Model.Cover
import Verif.Model.TestHelpers

/-!
# The unit tests of the cover tree

test/pico_tree/cover_tree_test.cpp. The random points and the random order of insertion are arguments.
-/

namespace Pico.CoverTest
open TestHelpers

variable {α L : Type} [LT α] [LE α] [DecidableLT α] [DecidableLE α] [DecidableEq α] [Zero α] [One α] [Add α] [Sub α]
  [Mul α] [Div α] {d : Nat}

/-- `query_radius` (cover_tree_test.cpp:19-31) with `test_radius` (common.hpp:130-174): the query is the point in the
middle; `scale` is the scalar 1.5. -/
def queryRadius (B : Leveling α L) (P : StdPart (CNode L Unit)) (M : Metric α d) (N : Num α)
    (sorter : StdSort (CNode L α × α)) (sorter' : StdSort (Neighbor α)) (floatEq : α → α → Bool) (pts : Nat → Pt α d)
    (n : Nat) (indices : List Nat) (scale radius : α) (fuel : Nat) : Outcome Bool :=
  (CoverTree.make B P M N pts n indices fuel).bind fun T =>
    let p := T.pts (T.n / 2)
    (T.searchRadius sorter fuel sorter' p (M.one radius) [] false).bind fun exact =>
      (T.searchRadiusApprox sorter fuel sorter' p (M.one radius) (M.one scale) [] false).bind fun apprx =>
        testRadius floatEq T.n (fun i => M.dist p (T.pts i)) (M.one radius) (M.one scale) exact apprx

/-- `query_knn` (cover_tree_test.cpp:33-48) with `test_knn` (common.hpp:176-214). The move of the tree is C130. -/
def queryKnn (B : Leveling α L) (P : StdPart (CNode L Unit)) (M : Metric α d) (N : Num α)
    (sorter : StdSort (CNode L α × α)) (A : StdNth (Neighbor α)) (S : StdSort (Neighbor α))
    (floatEq floatLe : α → α → Bool) (pts : Nat → Pt α d) (n : Nat) (indices : List Nat) (scale : α) (k fuel : Nat) :
    Outcome Bool :=
  (CoverTree.make B P M N pts n indices fuel).bind fun T =>
    let p := T.pts (T.n / 2)
    (T.searchKnn sorter fuel p k []).bind fun exact =>
      (T.searchKnnApprox sorter fuel p k (M.one scale) []).bind fun apprx =>
        testKnn A S floatEq floatLe T.n k (fun i => M.dist p (T.pts i)) exact apprx

end Pico.CoverTest
