import Verif.Model.Metric
import Verif.Model.Visitor
import Mathlib.Algebra.Field.Defs
import Mathlib.Order.WithBot

/-!
# The cover tree of the examples (examples/pico_understory)

File names are relative to `examples/pico_understory/pico_understory/`.  The code is compiled with
`SIMPLIFIED_NEAREST_ANCESTOR_COVER_TREE` (cover_tree.hpp:25); the other branch of the `#ifdef`s is
modelled in `CoverRegular.lean`.

Nodes are values instead of pointers.  Every node has one parent (each pointer is held by one `children`
vector, or one of the vectors `to_move` / `to_stay`, at a time), so that changing a node through a pointer is
the same as replacing it inside of its parent.
-/

namespace Pico

/-- `f` for one element after the other; stops at undefined behaviour. Modelling device for loops. -/
def Outcome.foldl {σ τ : Type} (f : σ → τ → Outcome σ) : σ → List τ → Outcome σ
  | s, [] => .ok s
  | s, x :: l => (f s x).bind fun s => Outcome.foldl f s l

/-- `cover_tree_node` (internal/cover_tree_node.hpp:8-24); `γ` is the type of `max_distance`, it is `Unit`
while the member is not set. -/
inductive CNode (L γ : Type) where
  | node (index : Nat) (level : L) (maxDistance : γ) (children : List (CNode L γ))

namespace CNode
variable {L γ : Type}

def index : CNode L γ → Nat
  | node i _ _ _ => i

def level : CNode L γ → L
  | node _ l _ _ => l

def maxDistance : CNode L γ → γ
  | node _ _ m _ => m

def children : CNode L γ → List (CNode L γ)
  | node _ _ _ cs => cs

def setLevel (l : L) : CNode L γ → CNode L γ
  | node i _ m cs => node i l m cs

def setChildren (cs : List (CNode L γ)) : CNode L γ → CNode L γ
  | node i l m _ => node i l m cs

end CNode

/-- `base` (internal/cover_tree_base.hpp:14-36) and the arithmetic on levels: `cover l` is `pow(value, l)`,
`ceilLevel d` and `floorLevel d` are `std::ceil` and `std::floor` of `log(d) / log(value)`
(cover_tree_builder.hpp:111, 125), `up` and `down` add and subtract `1.0`, `lt` is `<` on levels, `unset`
is the value of a level that was not set, `twice x` is
`x * 2.0` (cover_tree_builder.hpp:211). -/
structure Leveling (α L : Type) where
  cover : L → α
  ceilLevel : α → L
  floorLevel : α → L
  zero : L
  unset : L
  up : L → L
  down : L → L
  lt : L → L → Bool
  twice : α → α

/-- `child_distance`: `pow(value, level - 1.0)` (internal/cover_tree_base.hpp:22-24). -/
def Leveling.child {α L : Type} (B : Leveling α L) (l : L) : α := B.cover (B.down l)

/-- The leveling with base `value` in exact arithmetic (internal/cover_tree_base.hpp:14-36): levels are
integers, or minus infinity (`⊥`), the logarithm of zero; `pow(value, -inf)` is zero. `ceilLog` and `floorLog`
are the rounded logarithms of positive numbers. -/
def Leveling.exact {K : Type} [Field K] [LinearOrder K] (value : K) (ceilLog floorLog : K → ℤ) :
    Leveling K (WithBot ℤ) where
  cover l := match l with
    | none => 0
    | some n => value ^ n
  ceilLevel d := if d ≤ 0 then ⊥ else ((ceilLog d : ℤ) : WithBot ℤ)
  floorLevel d := if d ≤ 0 then ⊥ else ((floorLog d : ℤ) : WithBot ℤ)
  zero := ((0 : ℤ) : WithBot ℤ)
  unset := ((0 : ℤ) : WithBot ℤ)
  up l := WithBot.map (· + 1) l
  down l := WithBot.map (· - 1) l
  lt a b := decide (a < b)
  twice x := x * 2

/-- `metric_l2` (metric.hpp:10-32); `sqrt` is `std::sqrt`. -/
def metricL2 {α : Type} [LT α] [DecidableLT α] [Zero α] [Add α] [Sub α] [Neg α] [Mul α] (sqrt : α → α) (d : Nat) :
    Metric α d where
  dist x y := sqrt (loopSum fun i => squaredR1Distance (x i) (y i))
  one x := sabs x
  space _ := .r1

/-- An implementation of `std::partition` on a vector of nodes: the part before and the part from the
returned iterator on ([alg.partitions]). -/
structure StdPart (τ : Type) where
  front : (τ → Bool) → List τ → List τ
  back : (τ → Bool) → List τ → List τ
  perm : ∀ p l, (front p l ++ back p l).Perm l
  front_true : ∀ p l, ∀ x ∈ front p l, p x = true
  back_false : ∀ p l, ∀ x ∈ back p l, p x = false

/-- `static_buffer::allocate` (internal/static_buffer.hpp:18-27) for a buffer with room for `cap` elements
that holds `used`. A vector that has to grow moves its elements, which leaves every node pointer dangling;
undefined behaviour in the model. -/
def bufferAllocate (cap used : Nat) : Outcome Nat := if used < cap then .ok (used + 1) else .ub

namespace Cover
variable {α L : Type}

/-- `push_child` (internal/cover_tree_builder.hpp:71-74). -/
def pushChild (B : Leveling α L) (parent child : CNode L Unit) : CNode L Unit :=
  parent.setChildren (parent.children ++ [child.setLevel (B.down parent.level)])

/-- `node_to_parent` (internal/cover_tree_builder.hpp:76-82). -/
def nodeToParent (B : Leveling α L) (parent child : CNode L Unit) : CNode L Unit :=
  (parent.setLevel (B.up child.level)).setChildren (parent.children ++ [child])

mutual
/-- `remove_leaf` (internal/cover_tree_builder.hpp:84-97): the removed leaf and the remaining tree.
`children.back()` of a leaf is undefined behaviour. -/
def removeLeaf : CNode L Unit → Outcome (CNode L Unit × CNode L Unit)
  | .node i l m cs => (removeLast cs).bind fun r => .ok (r.1, .node i l m r.2)

/-- The same within the vector of children. -/
def removeLast : List (CNode L Unit) → Outcome (CNode L Unit × List (CNode L Unit))
  | [] => .ub
  | c :: cs =>
    match cs with
    | [] =>
      match c.children with
      | [] => .ok (c, [])
      | _ :: _ => (removeLeaf c).bind fun r => .ok (r.1, [r.2])
    | _ :: _ => (removeLast cs).bind fun r => .ok (r.1, c :: r.2)
end

mutual
/-- `strip` (internal/cover_tree_builder.hpp:295-317); `toMove` is the comparison of lines 309-310, the
accumulator is `(to_move, to_stay)`. Clears the children of the node, see `extract` and `stripList`. -/
def strip (toMove : Nat → Bool) : CNode L Unit → List (CNode L Unit) × List (CNode L Unit) →
    List (CNode L Unit) × List (CNode L Unit)
  | .node _ _ _ cs, acc => stripList toMove cs acc

/-- The loop of `strip` (internal/cover_tree_builder.hpp:305-315). The node pushed at last has no children
anymore, as its own `strip` has cleared them. -/
def stripList (toMove : Nat → Bool) : List (CNode L Unit) → List (CNode L Unit) × List (CNode L Unit) →
    List (CNode L Unit) × List (CNode L Unit)
  | [], acc => acc
  | c :: cs, acc =>
    let acc := strip toMove c acc
    let c := c.setChildren []
    stripList toMove cs (if toMove c.index then (acc.1 ++ [c], acc.2) else (acc.1, acc.2 ++ [c]))
end

/-- `extract` (internal/cover_tree_builder.hpp:259-290); `keep` is the predicate of lines 272-276. The nodes
of the erased part are pushed to `to_move` before `strip` clears their children. -/
def extract (P : StdPart (CNode L Unit)) (keep toMove : Nat → Bool) :
    Nat → CNode L Unit → List (CNode L Unit) × List (CNode L Unit) →
    Outcome (CNode L Unit × (List (CNode L Unit) × List (CNode L Unit)))
  | 0, _, _ => .oof
  | fuel + 1, descendant, acc =>
    match descendant.children with
    | [] => .ok (descendant, acc)
    | c :: cs =>
      let front := P.front (fun x => keep x.index) (c :: cs)
      let back := P.back (fun x => keep x.index) (c :: cs)
      let acc := back.reverse.foldl
        (fun acc x => strip toMove x (acc.1 ++ [x.setChildren []], acc.2)) acc
      (Outcome.foldl (fun st x => (extract P keep toMove fuel x st.2).bind fun r => .ok (r.1 :: st.1, r.2))
        ([], acc) front.reverse).bind fun st => .ok (descendant.setChildren st.1, st.2)

/-- Position of the first smallest element (internal/cover_tree_builder.hpp:173-185). -/
def argMin [LT α] [DecidableLT α] (f : CNode L Unit → α) : List (CNode L Unit) → Nat
  | [] => 0
  | c :: cs =>
    (cs.foldl (fun (st : Nat × α × Nat) x =>
      if f x < st.2.1 then (st.1 + 1, f x, st.1) else (st.1 + 1, st.2)) (1, f c, 0)).2.2

section Builder
variable [LT α] [LE α] [DecidableLT α] [DecidableLE α] (B : Leveling α L) (P : StdPart (CNode L Unit)) (dist : Nat → Nat → α)

/-- The loop over the children of `rebalance` (internal/cover_tree_builder.hpp:213-225); `ins` is
`insert_covered`. -/
def rebalanceChildren (ins : CNode L Unit → CNode L Unit → Outcome (CNode L Unit)) (fuel x : Nat) (d : α) :
    List (CNode L Unit) → List (CNode L Unit) → Outcome (List (CNode L Unit) × List (CNode L Unit))
  | [], toMove => .ok ([], toMove)
  | child :: rest, toMove =>
    if dist x child.index < d then
      (extract P (fun p => decide (dist child.index p < dist x p))
        (fun p => decide (dist child.index p > dist x p)) fuel child (toMove, [])).bind fun r =>
      (Outcome.foldl ins r.1 r.2.2.reverse).bind fun child' =>
      (rebalanceChildren ins fuel x d rest r.2.1).bind fun q => .ok (child' :: q.1, q.2)
    else
      (rebalanceChildren ins fuel x d rest toMove).bind fun q => .ok (child :: q.1, q.2)

/-- `rebalance` (internal/cover_tree_builder.hpp:196-233). -/
def rebalance (ins : CNode L Unit → CNode L Unit → Outcome (CNode L Unit)) (fuel : Nat)
    (parent node : CNode L Unit) : Outcome (CNode L Unit) :=
  (rebalanceChildren P dist ins fuel node.index (B.twice (B.child parent.level)) parent.children []).bind
    fun q =>
  (Outcome.foldl ins (node.setLevel (B.down parent.level)) q.2.reverse).bind fun node =>
  .ok (pushChild B (parent.setChildren q.1) node)

/-- `insert_covered` (internal/cover_tree_builder.hpp:148-161) with `find_parent` (164-193): the change of the
node that `find_parent` returns is carried out along the path to it. -/
def insertCovered : Nat → CNode L Unit → CNode L Unit → Outcome (CNode L Unit)
  | 0, _, _ => .oof
  | fuel + 1, tree, node =>
    match tree.children with
    | [] => .ok (pushChild B tree node)
    | c :: cs =>
      let i := argMin (fun x => dist node.index x.index) (c :: cs)
      match (c :: cs)[i]? with
      | none => .ub
      | some m =>
        if dist node.index m.index ≤ B.child tree.level then
          (insertCovered fuel m node).bind fun m' => .ok (tree.setChildren ((c :: cs).set i m'))
        else rebalance B P dist (insertCovered fuel) fuel tree node

/-- The loop of `insert` (internal/cover_tree_builder.hpp:127-129). -/
def raise (level : L) : Nat → CNode L Unit → Outcome (CNode L Unit)
  | 0, _ => .oof
  | fuel + 1, tree =>
    if B.lt tree.level level then
      (removeLeaf tree).bind fun r => raise level fuel (nodeToParent B r.1 r.2)
    else .ok tree

variable [Add α]

/-- `insert` (internal/cover_tree_builder.hpp:119-144). -/
def insert (fuel : Nat) (tree node : CNode L Unit) : Outcome (CNode L Unit) :=
  let d := dist node.index tree.index
  let c := B.cover tree.level
  if d > c then
    (raise B (B.floorLevel (c + d)) fuel tree).bind fun tree => .ok (nodeToParent B node tree)
  else insertCovered B P dist fuel tree node

/-- `create_node` (internal/cover_tree_builder.hpp:65-69). The level of the new node is not set. -/
def createNode (cap used idx : Nat) : Outcome (CNode L Unit × Nat) :=
  (bufferAllocate cap used).bind fun used => .ok (.node idx B.unset () [], used)

/-- `insert_first_two` (internal/cover_tree_builder.hpp:101-116); `indices` are the shuffled indices of the
points. -/
def insertFirstTwo (cap : Nat) : List Nat → Outcome (CNode L Unit × Nat)
  | [] => .ub
  | [i] => (createNode B cap 0 i).bind fun a => .ok (a.1.setLevel B.zero, a.2)
  | i :: j :: _ =>
    (createNode B cap 0 i).bind fun a =>
    (createNode B cap a.2 j).bind fun b =>
    .ok (pushChild B (a.1.setLevel (B.ceilLevel (dist i j))) b.1, b.2)

/-- Insertion of all points (internal/cover_tree_builder.hpp:42-45). -/
def insertAll (fuel : Nat) (indices : List Nat) : Outcome (CNode L Unit) :=
  (insertFirstTwo B dist indices.length indices).bind fun st =>
  (Outcome.foldl (fun (st : CNode L Unit × Nat) i =>
      (createNode B indices.length st.2 i).bind fun c =>
      (insert B P dist fuel st.1 c.1).bind fun tree => .ok (tree, c.2)) st (indices.drop 2)).bind
    fun st => .ok st.1

mutual
/-- `depth_first_buffer_copy` (internal/cover_tree_builder.hpp:319-331) into a buffer with room for `cap`
nodes that holds `used`. -/
def bufferCopy (cap : Nat) : CNode L Unit → Nat → Outcome (CNode L Unit × Nat)
  | .node i l m cs, used =>
    (bufferAllocate cap used).bind fun used =>
    (bufferCopyList cap cs used).bind fun r => .ok (.node i l m r.1, r.2)

/-- Its loop (internal/cover_tree_builder.hpp:326-328). -/
def bufferCopyList (cap : Nat) : List (CNode L Unit) → Nat → Outcome (List (CNode L Unit) × Nat)
  | [], used => .ok ([], used)
  | c :: cs, used =>
    (bufferCopy cap c used).bind fun r =>
    (bufferCopyList cap cs r.2).bind fun q => .ok (r.1 :: q.1, q.2)
end

mutual
/-- `max_distance` (internal/cover_tree_builder.hpp:341-350); `f` gives the distances from the point `x`. -/
def maxDistance (f : Nat → α) : CNode L Unit → α
  | .node i _ _ cs => maxDistanceList f (f i) cs

/-- Its loop (internal/cover_tree_builder.hpp:345-347). -/
def maxDistanceList (f : Nat → α) : α → List (CNode L Unit) → α
  | acc, [] => acc
  | acc, c :: cs => maxDistanceList f (stdMax acc (maxDistance f c)) cs
end

mutual
/-- `update_max_distance` (internal/cover_tree_builder.hpp:333-339). -/
def updateMaxDistance (dist : Nat → Nat → α) : CNode L Unit → CNode L α
  | .node i l m cs => .node i l (maxDistance (dist i) (.node i l m cs)) (updateMaxDistanceList dist cs)

/-- Its loop (internal/cover_tree_builder.hpp:336-338). -/
def updateMaxDistanceList (dist : Nat → Nat → α) : List (CNode L Unit) → List (CNode L α)
  | [] => []
  | c :: cs => updateMaxDistance dist c :: updateMaxDistanceList dist cs
end

/-- `build_cover_tree_impl::operator()` (internal/cover_tree_builder.hpp:27-60); `indices` is the outcome of
`std::shuffle`. -/
def build (fuel : Nat) (indices : List Nat) : Outcome (CNode L α) :=
  (insertAll B P dist fuel indices).bind fun node =>
  (bufferCopy indices.length node 0).bind fun r => .ok (updateMaxDistance dist r.1)

end Builder

section Search
variable {σ : Type} [LT α] [LE α] [DecidableLT α] [DecidableLE α] [Sub α]

/-- `search_nearest` (internal/cover_tree_search.hpp:36-80); `dq` gives the distances from the query, `sorter`
is `std::sort`. -/
def searchNearest (sorter : StdSort (CNode L α × α)) (V : Visitor α σ) (dq : Nat → α) :
    Nat → CNode L α → σ → Outcome σ
  | 0, _, _ => .oof
  | fuel + 1, node, s =>
    let d := dq node.index
    let s := if V.max s > d then V.visit s node.index d else s
    let sorted := sorter.sort (fun a b => decide (a.2 < b.2)) (node.children.map fun c => (c, dq c.index))
    Outcome.foldl (fun s m =>
      if V.max s > dq m.1.index - m.1.maxDistance then searchNearest sorter V dq fuel m.1 s else .ok s)
      s sorted

end Search

end Cover

/-- `cover_tree` (cover_tree.hpp:36-219): `n` points, a metric and the tree. -/
structure CoverTree (α : Type) (d : Nat) (L : Type) where
  metric : Metric α d
  num : Num α
  pts : Nat → Pt α d
  n : Nat
  root : CNode L α

namespace CoverTree
variable {α L σ : Type} [LT α] [LE α] [DecidableLT α] [DecidableLE α] {d : Nat}

/-- The constructor (cover_tree.hpp:76-81, internal/cover_tree_builder.hpp:368-384): `indices` is the
random order of the points. -/
def make [Add α] (B : Leveling α L) (P : StdPart (CNode L Unit)) (M : Metric α d) (N : Num α)
    (pts : Nat → Pt α d) (n : Nat) (indices : List Nat) (fuel : Nat) : Outcome (CoverTree α d L) :=
  (Cover.build B P (fun i j => M.dist (pts i) (pts j)) fuel indices).bind fun t => .ok ⟨M, N, pts, n, t⟩

variable [Sub α] (sorter : StdSort (CNode L α × α)) (fuel : Nat)

/-- `search_nearest` (cover_tree.hpp:200-211). -/
def searchNearest (T : CoverTree α d L) (x : Pt α d) (V : Visitor α σ) (s : σ) : Outcome σ :=
  Cover.searchNearest sorter V (fun i => T.metric.dist x (T.pts i)) fuel T.root s

/-- `search_nn` (cover_tree.hpp:84-88). -/
def searchNn (T : CoverTree α d L) (x : Pt α d) (nn : Neighbor α) : Outcome (Neighbor α) :=
  T.searchNearest sorter fuel x nnVisitor (nnInit T.num nn)

/-- `search_knn(x, begin, end)` (cover_tree.hpp:101-112). -/
def searchKnnRange (T : CoverTree α d L) (x : Pt α d) (buf : List (Neighbor α)) :
    Outcome (List (Neighbor α)) :=
  (knnInit T.num buf).bind fun s =>
  (T.searchNearest sorter fuel x (knnVisitor T.num) s).bind fun t => .ok t.buf

/-- `search_knn(x, k, knn)` (cover_tree.hpp:116-123). -/
def searchKnn [Zero α] (T : CoverTree α d L) (x : Pt α d) (k : Nat) (knn : List (Neighbor α)) :
    Outcome (List (Neighbor α)) :=
  T.searchKnnRange sorter fuel x (knn.take (min k T.n) ++ List.replicate (min k T.n - knn.length) ⟨0, 0⟩)

/-- `search_radius(x, radius, n, sort)` (cover_tree.hpp:160-172). -/
def searchRadius (sorter' : StdSort (Neighbor α)) (T : CoverTree α d L) (x : Pt α d) (radius : α)
    (n : List (Neighbor α)) (sort : Bool) : Outcome (List (Neighbor α)) :=
  (T.searchNearest sorter fuel x (radiusVisitor radius) (radiusInit n)).bind fun out =>
  .ok (if sort then sorter'.sort Neighbor.lt out else out)

variable [One α] [Mul α] [Div α]

/-- Approximate `search_nn(x, e, nn)` (cover_tree.hpp:91-96). -/
def searchNnApprox (T : CoverTree α d L) (x : Pt α d) (e : α) (nn : Neighbor α) : Outcome (Neighbor α) :=
  T.searchNearest sorter fuel x (approxNnVisitor e) (nnInit T.num nn)

/-- Approximate `search_knn(x, e, begin, end)` (cover_tree.hpp:128-142). -/
def searchKnnApproxRange (T : CoverTree α d L) (x : Pt α d) (e : α) (buf : List (Neighbor α)) :
    Outcome (List (Neighbor α)) :=
  (knnInit T.num buf).bind fun s =>
  (T.searchNearest sorter fuel x (approxKnnVisitor T.num e) s).bind fun t => .ok t.buf

/-- Approximate `search_knn(x, k, e, knn)` (cover_tree.hpp:146-156). -/
def searchKnnApprox [Zero α] (T : CoverTree α d L) (x : Pt α d) (k : Nat) (e : α) (knn : List (Neighbor α)) :
    Outcome (List (Neighbor α)) :=
  T.searchKnnApproxRange sorter fuel x e
    (knn.take (min k T.n) ++ List.replicate (min k T.n - knn.length) ⟨0, 0⟩)

/-- Approximate `search_radius(x, radius, e, n, sort)` (cover_tree.hpp:176-189). -/
def searchRadiusApprox (sorter' : StdSort (Neighbor α)) (T : CoverTree α d L) (x : Pt α d) (radius e : α)
    (n : List (Neighbor α)) (sort : Bool) : Outcome (List (Neighbor α)) :=
  (T.searchNearest sorter fuel x (approxRadiusVisitor e radius) (radiusInit n)).bind fun out =>
  .ok (if sort then sorter'.sort Neighbor.lt out else out)

end CoverTree

end Pico
