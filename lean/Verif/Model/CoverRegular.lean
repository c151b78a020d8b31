import Verif.Model.Cover

/-!
# The regular nearest ancestor cover tree of the examples

The branch of `cover_tree_builder.hpp` that is compiled when `SIMPLIFIED_NEAREST_ANCESTOR_COVER_TREE` is not defined
(cover_tree.hpp:7-25 asks the user to choose). Everything outside of the two `#ifdef`s is the model of `Cover.lean`.
-/

namespace Pico

namespace Cover
variable {α L : Type} [LT α] [LE α] [DecidableLT α] [DecidableLE α] (B : Leveling α L) (P : StdPart (CNode L Unit))
  (dist : Nat → Nat → α)

/-- `parent_distance`: `pow(value, level + 1.0)` (internal/cover_tree_base.hpp:27-29). -/
def _root_.Pico.Leveling.parent (B : Leveling α L) (l : L) : α := B.cover (B.up l)

/-- The loop of `insert` (internal/cover_tree_builder.hpp:131-136): `x` is the point of the new node, `c` the distance
that is compared with. `d` is always the distance from `x` to the root. -/
def raiseRegular (x : Nat) : Nat → α → CNode L Unit → Outcome (CNode L Unit)
  | 0, _, _ => .oof
  | fuel + 1, c, tree =>
    if dist x tree.index > c then
      (removeLeaf tree).bind fun r =>
      let tree := nodeToParent B r.1 r.2
      raiseRegular x fuel (B.parent tree.level) tree
    else .ok tree

/-- The loop over the children of `rebalance` (internal/cover_tree_builder.hpp:235-243); `ins` is `insert`. -/
def rebalanceChildrenRegular (ins : CNode L Unit → CNode L Unit → Outcome (CNode L Unit)) (fuel x : Nat) :
    List (CNode L Unit) → List (CNode L Unit) → Outcome (List (CNode L Unit) × List (CNode L Unit))
  | [], toMove => .ok ([], toMove)
  | child :: rest, toMove =>
    (extract P (fun p => decide (dist child.index p < dist x p))
      (fun p => decide (dist child.index p > dist x p)) fuel child (toMove, [])).bind fun r =>
    (Outcome.foldl ins r.1 r.2.2.reverse).bind fun child' =>
    (rebalanceChildrenRegular ins fuel x rest r.2.1).bind fun q => .ok (child' :: q.1, q.2)

/-- `rebalance` (internal/cover_tree_builder.hpp:196-200, 234-252). -/
def rebalanceRegular (ins : CNode L Unit → CNode L Unit → Outcome (CNode L Unit)) (fuel : Nat)
    (parent node : CNode L Unit) : Outcome (CNode L Unit) :=
  (rebalanceChildrenRegular P dist ins fuel node.index parent.children []).bind fun q =>
  (Outcome.foldl ins (node.setLevel (B.down parent.level)) q.2.reverse).bind fun node =>
  .ok (pushChild B (parent.setChildren q.1) node)

/-- `insert_covered` (internal/cover_tree_builder.hpp:148-161) with `find_parent` (164-193), as in `insertCovered`;
`ins` is `insert`. -/
def insertCoveredRegular (ins : CNode L Unit → CNode L Unit → Outcome (CNode L Unit)) :
    Nat → CNode L Unit → CNode L Unit → Outcome (CNode L Unit)
  | 0, _, _ => .oof
  | fuel + 1, tree, node =>
    match tree.children with
    | [] => .ok (pushChild B tree node)
    | c :: cs =>
      let i := argMin (fun x => dist node.index x.index) (c :: cs)
      match (c :: cs)[i]? with
      | none => .ub
      | some m =>
        if dist node.index m.index ≤ B.child tree.level then
          (insertCoveredRegular ins fuel m node).bind fun m' => .ok (tree.setChildren ((c :: cs).set i m'))
        else rebalanceRegular B P dist ins fuel tree node

variable [Mul α] (value : α)

/-- `insert` (internal/cover_tree_builder.hpp:119-123, 131-144); `value` is `base_.value`. -/
def insertRegular : Nat → CNode L Unit → CNode L Unit → Outcome (CNode L Unit)
  | 0, _, _ => .oof
  | fuel + 1, tree, node =>
    if dist node.index tree.index > B.cover tree.level then
      (raiseRegular B dist node.index fuel (B.cover tree.level * value) tree).bind fun tree =>
      .ok (nodeToParent B node tree)
    else insertCoveredRegular B P dist (insertRegular fuel) fuel tree node

/-- Insertion of all points (internal/cover_tree_builder.hpp:42-45). -/
def insertAllRegular (fuel : Nat) (indices : List Nat) : Outcome (CNode L Unit) :=
  (insertFirstTwo B dist indices.length indices).bind fun st =>
  (Outcome.foldl (fun (st : CNode L Unit × Nat) i =>
      (createNode B indices.length st.2 i).bind fun c =>
      (insertRegular B P dist value fuel st.1 c.1).bind fun tree => .ok (tree, c.2)) st (indices.drop 2)).bind
    fun st => .ok st.1

/-- `build_cover_tree_impl::operator()` (internal/cover_tree_builder.hpp:27-60). -/
def buildRegular (fuel : Nat) (indices : List Nat) : Outcome (CNode L α) :=
  (insertAllRegular B P dist value fuel indices).bind fun node =>
  (bufferCopy indices.length node 0).bind fun r => .ok (updateMaxDistance dist r.1)

end Cover

/-- The constructor of `cover_tree` (cover_tree.hpp:76-81, internal/cover_tree_builder.hpp:368-384) with the regular
builder: `indices` is the random order of the points. -/
def CoverTree.makeRegular {α L : Type} [LT α] [LE α] [DecidableLT α] [DecidableLE α] [Mul α] {d : Nat}
    (B : Leveling α L) (P : StdPart (CNode L Unit)) (value : α) (M : Metric α d) (N : Num α) (pts : Nat → Pt α d)
    (n : Nat) (indices : List Nat) (fuel : Nat) : Outcome (CoverTree α d L) :=
  (Cover.buildRegular B P (fun i j => M.dist (pts i) (pts j)) value fuel indices).bind fun t => .ok ⟨M, N, pts, n, t⟩

end Pico
