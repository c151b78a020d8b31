import Verif.Model.KdTree
import Verif.Model.Cover

/-!
# The randomised kd forest of the examples (examples/pico_understory)

File names are relative to `examples/pico_understory/pico_understory/`.
-/

namespace Pico

/-- An implementation of `std::priority_queue` with `std::greater` on pairs of a distance and a node pointer
([priqueue.members]). The contents are kept as a list in unspecified order; `pop` gives `top()` and what remains
after `pop()`. Among equal distances the order of the pointers decides, which is left open. -/
structure StdQueue (α τ : Type) [LE α] where
  pop : List (α × τ) → Option ((α × τ) × List (α × τ))
  empty : pop [] = none
  top : ∀ x l, ∃ y r, pop (x :: l) = some (y, r) ∧ (y :: r).Perm (x :: l) ∧ ∀ z ∈ r, y.1 ≤ z.1

section Search
variable {α : Type} [LT α] [LE α] [DecidableLT α] [DecidableLE α] [Zero α] [Add α] [Sub α] {d : Nat} {σ : Type}

/-- The first child (`true`: left), `old_offset` and `new_offset` of
`priority_search_nearest_euclidean::search_nearest` (internal/kd_tree_priority_search.hpp:93-112). -/
def pickPriority (M : Metric α d) (q : Pt α d) (b : Branch2 α d) : Bool × α × α :=
  let v := q b.splitDim
  if b.leftMax + b.rightMin - v - v > 0 then
    (true, if v > b.leftMin then 0 else M.one (b.leftMin - v), M.one (b.rightMin - v))
  else
    (false, if v < b.rightMax then 0 else M.one (b.rightMax - v), M.one (b.leftMax - v))

/-- `priority_search_nearest_euclidean::search_nearest` (internal/kd_tree_priority_search.hpp:68-127). The
mutable members are the visitor and the queue. -/
def priorityDescend (M : Metric α d) (q : Pt α d) (V : Visitor α σ) (dist : Nat → α) (indices : List Nat) :
    Tree (Branch2 α d) → α → σ × List (α × Tree (Branch2 α d)) → σ × List (α × Tree (Branch2 α d))
  | .leaf b e, _, st => (visitAll V dist (slice indices b e) st.1, st.2)
  | .branch data l r, nodeBoxDistance, st =>
    let p := pickPriority M q data
    let st1 := if p.1 then priorityDescend M q V dist indices l nodeBoxDistance st
               else priorityDescend M q V dist indices r nodeBoxDistance st
    let nodeBoxDistance' := nodeBoxDistance - p.2.1 + p.2.2
    if V.max st1.1 > nodeBoxDistance' then (st1.1, (nodeBoxDistance', if p.1 then r else l) :: st1.2) else st1

/-- The loop of `priority_search_nearest_euclidean::operator()` (internal/kd_tree_priority_search.hpp:51-63). -/
def priorityLoop (Q : StdQueue α (Tree (Branch2 α d))) (M : Metric α d) (q : Pt α d) (V : Visitor α σ)
    (dist : Nat → α) (indices : List Nat) (maxLeaves : Nat) :
    Nat → Nat → σ × List (α × Tree (Branch2 α d)) → Outcome σ
  | 0, _, _ => .oof
  | fuel + 1, leavesVisited, st =>
    match Q.pop st.2 with
    | none => .ok st.1
    | some (top, rest) =>
      if leavesVisited ≥ maxLeaves ∨ V.max st.1 < top.1 then .ok st.1
      else priorityLoop Q M q V dist indices maxLeaves fuel (leavesVisited + 1)
        (priorityDescend M q V dist indices top.2 top.1 (st.1, rest))

/-- `priority_search_nearest_euclidean::operator()` (internal/kd_tree_priority_search.hpp:48-64). -/
def prioritySearch (Q : StdQueue α (Tree (Branch2 α d))) (M : Metric α d) (q : Pt α d) (V : Visitor α σ)
    (dist : Nat → α) (indices : List Nat) (maxLeaves fuel : Nat) (root : Tree (Branch2 α d)) (s : σ) :
    Outcome σ :=
  priorityLoop Q M q V dist indices maxLeaves fuel 0 (s, [(0, root)])

end Search

section Rotation
variable {α : Type} [Zero α] [One α] [Add α] [Sub α] [Mul α] [Div α] {d : Nat}

/-- `rkd_tree_hh_data::rotate_point` (internal/rkd_tree_hh_data.hpp:81-92); the output is a new point. -/
def rotatePoint (r x : Pt α d) : Pt α d :=
  let dot := loopSum (fun i => r i * x i) * (1 + 1)
  fun i => x i - dot * r i

/-- `point::normalize` (src/pico_tree/pico_tree/internal/point.hpp:65-71); `sqrt` is `std::sqrt`. -/
def normalize (sqrt : α → α) (x : Pt α d) : Pt α d :=
  let l2 := 1 / sqrt (loopSum fun i => x i * x i)
  fun i => x i * l2

end Rotation

/-- `rkd_tree_hh_data` (internal/rkd_tree_hh_data.hpp:38-78). -/
structure RotTree (α : Type) (d : Nat) where
  rotation : Pt α d
  pts : Nat → Pt α d
  data : TreeData α d (Branch2 α d)

/-- `kd_forest` (kd_forest.hpp:12-119); the space is only used for the construction. -/
structure Forest (α : Type) (d : Nat) where
  metric : Metric α d
  num : Num α
  trees : List (RotTree α d)

namespace Forest
variable {α : Type} [LT α] [LE α] [DecidableLT α] [DecidableLE α] [Zero α] [One α] [Add α] [Sub α] [Mul α] {d : Nat} {σ : Type}

/-- The options of the construction (kd_forest.hpp:45-51): the sliding midpoint rule, a maximum leaf size and
the bounds of the points. -/
def opts (S : Std) (indexBits maxLeafSize : Nat) : BuildOpts α d where
  S := S
  rule := .sliding
  stop := .maxLeafSize maxLeafSize
  bounds := .fromSpace
  indexBits := indexBits

/-- One tree (internal/rkd_tree_builder.hpp:34-38 with internal/rkd_tree_hh_data.hpp:51-63). -/
def makeTree (S : Std) (N : Num α) (pts : Nat → Pt α d) (n indexBits maxLeafSize fuel : Nat) (r : Pt α d) :
    Outcome (RotTree α d) :=
  let rotated := fun i => rotatePoint r (pts i)
  let o : BuildOpts α d := opts S indexBits maxLeafSize
  (buildTree (⟨rotated, S, N, o.rule, o.stop, o.indexBits, setBranchTopological⟩ : BuildCfg α d (Branch2 α d)) n
    o.bounds fuel).bind fun t => .ok ⟨r, rotated, t⟩

/-- The constructor (kd_forest.hpp:43-51, internal/rkd_tree_builder.hpp:15-41); `rotations` are the random
unit vectors, one for each tree. -/
def make (M : Metric α d) (S : Std) (N : Num α) (pts : Nat → Pt α d) (n indexBits maxLeafSize fuel : Nat)
    (rotations : List (Pt α d)) : Outcome (Forest α d) :=
  (Outcome.foldl (fun trees r => (makeTree S N pts n indexBits maxLeafSize fuel r).bind fun t =>
    .ok (trees ++ [t])) [] rotations).bind fun trees => .ok ⟨M, N, trees⟩

/-- `search_nearest` (kd_forest.hpp:69-76, 89-115). `Q i` is the queue in the search of tree `i`: among equal distances
the addresses of the nodes of that tree decide. -/
def searchNearest (Q : Nat → StdQueue α (Tree (Branch2 α d))) (fuel : Nat) (F : Forest α d) (x : Pt α d)
    (maxLeaves : Nat) (V : Visitor α σ) (s : σ) : Outcome σ :=
  Outcome.foldl (fun s t =>
    let p := rotatePoint t.1.rotation x
    prioritySearch (Q t.2) F.metric p V (fun i => F.metric.dist p (t.1.pts i)) t.1.data.indices maxLeaves fuel
      t.1.data.root s)
    s F.trees.zipIdx

/-- `search_nn` (kd_forest.hpp:81-86). -/
def searchNn (Q : Nat → StdQueue α (Tree (Branch2 α d))) (fuel : Nat) (F : Forest α d) (x : Pt α d) (maxLeaves : Nat)
    (nn : Neighbor α) : Outcome (Neighbor α) :=
  F.searchNearest Q fuel x maxLeaves nnVisitor (nnInit F.num nn)

end Forest

end Pico
