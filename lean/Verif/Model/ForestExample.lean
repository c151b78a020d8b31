import Verif.Model.Forest

/-!
# The kd_forest example (examples/kd_forest/kd_forest.cpp)

Compares the answers of a forest with those of a kd_tree.  Reading the data sets and the file of answers is the subject
of `Model/Formats.lean`; here the contents of the file are given as a list.
-/

namespace Pico

variable {α : Type} [LT α] [LE α] [DecidableLT α] [DecidableLE α] [Zero α] [One α] [Add α] [Sub α] [Mul α] {d : Nat}
  {β : Type}

/-- `run_kd_tree` (kd_forest.cpp:43-76): the answers of the kd_tree, or the contents of the file of an earlier run.
`file` is `none` if it does not exist. The second component is the file afterwards; `write_bin` writes no file for
an empty vector. The tree is built by the caller here; the code builds it only if there is no file. -/
def runKdTree (T : KdTree α d β) (test : List (Pt α d)) (file : Option (List (Neighbor α))) :
    List (Neighbor α) × Option (List (Neighbor α)) :=
  match file with
  | some nns => (nns, file)
  | none =>
    let nns := test.map fun x => T.searchNn x ⟨0, 0⟩
    (nns, if nns.isEmpty then none else some nns)

/-- The loop of `run_kd_forest` (kd_forest.cpp:29-38) from iteration `i` on, where `nns` are the answers that are
left; `nn` is the neighbor of the previous iteration, an uninitialised one at first. Reading `test[i]` behind the end
is undefined. -/
def runKdForestLoop (Q : Nat → StdQueue α (Tree (Branch2 α d))) (fuel : Nat) (F : Forest α d) (test : List (Pt α d))
    (maxLeaves : Nat) : List (Neighbor α) → Nat → Neighbor α → Nat → Outcome Nat
  | [], _, _, equal => .ok equal
  | g :: nns, i, nn, equal =>
    match test[i]? with
    | none => .ub
    | some x =>
      (F.searchNn Q fuel x maxLeaves nn).bind fun nn =>
        runKdForestLoop Q fuel F test maxLeaves nns (i + 1) nn (if g.index = nn.index then equal + 1 else equal)

/-- `run_kd_forest` (kd_forest.cpp:12-41), without the construction of the forest: the number of equal answers. -/
def runKdForest (Q : Nat → StdQueue α (Tree (Branch2 α d))) (fuel : Nat) (F : Forest α d) (test : List (Pt α d))
    (nns : List (Neighbor α)) (maxLeaves : Nat) (nn : Neighbor α) : Outcome Nat :=
  runKdForestLoop Q fuel F test maxLeaves nns 0 nn 0

/-- `run_dataset` (kd_forest.cpp:82-110) up to the division: numerator and denominator of the precision. -/
def runDataset (T : KdTree α d β) (Q : Nat → StdQueue α (Tree (Branch2 α d))) (fuel : Nat) (F : Forest α d)
    (test : List (Pt α d)) (file : Option (List (Neighbor α))) (maxLeaves : Nat) (nn : Neighbor α) :
    Outcome (Nat × Nat) :=
  let nns := (runKdTree T test file).1
  (runKdForest Q fuel F test nns maxLeaves nn).bind fun equal => .ok (equal, nns.length)

end Pico
