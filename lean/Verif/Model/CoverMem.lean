import Verif.Model.Cover
import Verif.Model.Memory

/-!
# The cover tree of the examples, with its nodes in memory

File names are relative to `examples/pico_understory/pico_understory/`.

`Cover.lean` treats nodes as values.  Here the code is modelled as it is written: nodes live in the blocks of
`static_buffer`s, they are read and changed through pointers, and a pointer to a node that does not exist
(anymore) is undefined behaviour.  A pointer is the number of a block and the position inside of it.

* The vectors `children`, `to_move`, `to_stay`, `indices` and `sorted` are values; their own storage is not
  modelled.  A loop over `children` of a node has undefined behaviour if that vector changes while the loop
  runs (`forEach`): its iterators would be invalid.
* An `assert` that fails counts as undefined behaviour.
* `std::partition` and `std::sort` cannot look at the values they move, except with the predicate or the
  comparator: they are natural in the type of the values (`StdPartition`, `StdSorting`).
-/

namespace Pico

/-- `std::partition` for every type of values. -/
structure StdPartition where
  part : ∀ τ : Type, StdPart τ
  front_map : ∀ {τ υ : Type} (f : τ → υ) (p : υ → Bool) (l : List τ),
    (part υ).front p (l.map f) = ((part τ).front (fun x => p (f x)) l).map f
  back_map : ∀ {τ υ : Type} (f : τ → υ) (p : υ → Bool) (l : List τ),
    (part υ).back p (l.map f) = ((part τ).back (fun x => p (f x)) l).map f

/-- `std::sort` for every type of values. -/
structure StdSorting where
  sorter : ∀ τ : Type, StdSort τ
  sort_map : ∀ {τ υ : Type} (f : τ → υ) (lt : υ → υ → Bool) (l : List τ),
    (sorter υ).sort lt (l.map f) = ((sorter τ).sort (fun a b => lt (f a) (f b)) l).map f

/-- The capacities of `std::vector` ([vector.capacity]): `reserve n` is the capacity of an empty vector after
`reserve(n)`, `grow c` the one after an insertion into a vector with `c` elements that is full. -/
structure StdVector where
  reserve : Nat → Nat
  grow : Nat → Nat
  le_reserve : ∀ n, n ≤ reserve n
  lt_grow : ∀ n, n < grow n

namespace CoverMem
variable {α L : Type}

/-- `cover_tree_node` (internal/cover_tree_node.hpp:8-24). -/
structure Cell (α L : Type) where
  level : L
  maxDistance : α
  index : Nat
  children : List Ptr
  deriving DecidableEq

/-- The nodes that exist. -/
abbrev Mem (α L : Type) := Ptr → Option (Cell α L)

/-- The node a pointer points at. -/
def read (m : Mem α L) (p : Ptr) : Outcome (Cell α L) :=
  match m p with
  | none => .ub
  | some c => .ok c

/-- Change of the node a pointer points at. -/
def write (m : Mem α L) (p : Ptr) (c : Cell α L) : Outcome (Mem α L) :=
  match m p with
  | none => .ub
  | some _ => .ok (Function.update m p (some c))

/-- The members `index` of the nodes of a vector, with the pointers (modelling device). -/
def readIndices (m : Mem α L) : List Ptr → Outcome (List (Ptr × Nat))
  | [] => .ok []
  | p :: ps => (read m p).bind fun c => (readIndices m ps).bind fun r => .ok ((p, c.index) :: r)

/-- `for (auto c : p->children)` for the elements that remain; `vec` is the vector at the start of the loop.
The iterators stay valid as long as the vector does not change. -/
def forEach {σ : Type} (mem : σ → Mem α L) (p : Ptr) (vec : List Ptr) (body : σ → Ptr → Outcome σ) :
    List Ptr → σ → Outcome σ
  | [], s => .ok s
  | c :: rest, s =>
    (body s c).bind fun s =>
    (read (mem s) p).bind fun d => if d.children = vec then forEach mem p vec body rest s else .ub

/-- `push_child` (internal/cover_tree_builder.hpp:71-74). -/
def pushChild (B : Leveling α L) (parent child : Ptr) (m : Mem α L) : Outcome (Mem α L) :=
  (read m parent).bind fun a =>
  (read m child).bind fun c =>
  (write m child { c with level := B.down a.level }).bind fun m =>
  (read m parent).bind fun a => write m parent { a with children := a.children ++ [child] }

/-- `node_to_parent` (internal/cover_tree_builder.hpp:76-82). -/
def nodeToParent (B : Leveling α L) (parent child : Ptr) (m : Mem α L) : Outcome (Mem α L) :=
  (read m parent).bind fun a =>
  if a.children = [] then
    (read m child).bind fun c =>
    write m parent { a with level := B.up c.level, children := a.children ++ [child] }
  else .ub

/-- The loop of `remove_leaf` (internal/cover_tree_builder.hpp:84-97), entered with a branch. The result is
the leaf that was removed. -/
def removeLeaf : Nat → Ptr → Mem α L → Outcome (Ptr × Mem α L)
  | 0, _, _ => .oof
  | n + 1, node, m =>
    (read m node).bind fun a =>
    match a.children.getLast? with
    | none => .ub
    | some tree =>
      (read m tree).bind fun c =>
      if c.children = [] then
        (write m node { a with children := a.children.dropLast }).bind fun m => .ok (tree, m)
      else removeLeaf n tree m

/-- The vectors `to_move` and `to_stay`, and the memory. -/
abbrev Acc (α L : Type) := (List Ptr × List Ptr) × Mem α L

/-- `strip` (internal/cover_tree_builder.hpp:295-317); `toMove` is the comparison of lines 309-310. -/
def strip (toMove : Nat → Bool) : Nat → Ptr → Acc α L → Outcome (Acc α L)
  | 0, _, _ => .oof
  | n + 1, p, s =>
    (read s.2 p).bind fun d =>
    if d.children = [] then .ok s else
    (forEach Prod.snd p d.children (fun s c =>
      (strip toMove n c s).bind fun s =>
      (read s.2 c).bind fun e =>
      .ok (if toMove e.index then ((s.1.1 ++ [c], s.1.2), s.2) else ((s.1.1, s.1.2 ++ [c]), s.2)))
      d.children s).bind fun s =>
    (read s.2 p).bind fun d =>
    (write s.2 p { d with children := [] }).bind fun m => .ok (s.1, m)

/-- `extract` (internal/cover_tree_builder.hpp:259-290); `keep` is the predicate of lines 272-276. -/
def extract (P : StdPartition) (keep toMove : Nat → Bool) (depth : Nat) :
    Nat → Ptr → Acc α L → Outcome (Acc α L)
  | 0, _, _ => .oof
  | fuel + 1, p, s =>
    (read s.2 p).bind fun d =>
    if d.children = [] then .ok s else
    (readIndices s.2 d.children).bind fun cs =>
    let front := ((P.part _).front (fun x => keep x.2) cs).map Prod.fst
    let back := ((P.part _).back (fun x => keep x.2) cs).map Prod.fst
    (write s.2 p { d with children := front ++ back }).bind fun m =>
    (forEach Prod.snd p (front ++ back) (fun s c => strip toMove depth c ((s.1.1 ++ [c], s.1.2), s.2))
      back.reverse (s.1, m)).bind fun s =>
    (forEach Prod.snd p (front ++ back) (fun s c => extract P keep toMove depth fuel c s)
      front.reverse s).bind fun s =>
    (read s.2 p).bind fun d =>
    (write s.2 p { d with children := d.children.take front.length }).bind fun m => .ok (s.1, m)

/-- Position of the first smallest element (internal/cover_tree_builder.hpp:173-185). -/
def argMin [LT α] [DecidableLT α] {τ : Type} (f : τ → α) : List τ → Nat
  | [] => 0
  | c :: cs =>
    (cs.foldl (fun (st : Nat × α × Nat) x =>
      if f x < st.2.1 then (st.1 + 1, f x, st.1) else (st.1 + 1, st.2)) (1, f c, 0)).2.2

section Builder
variable [LT α] [LE α] [DecidableLT α] [DecidableLE α] (B : Leveling α L) (P : StdPartition)
  (dist : Nat → Nat → α)

/-- `find_parent` (internal/cover_tree_builder.hpp:163-194) for the point `x`. -/
def findParent (x : Nat) : Nat → Ptr → Mem α L → Outcome Ptr
  | 0, _, _ => .oof
  | n + 1, p, m =>
    (read m p).bind fun t =>
    if t.children = [] then .ok p else
    (readIndices m t.children).bind fun cs =>
    match cs[argMin (fun c => dist x c.2) cs]? with
    | none => .ub
    | some c => if dist x c.2 ≤ B.child t.level then findParent x n c.1 m else .ok p

/-- The loop of `rebalance` for one child (internal/cover_tree_builder.hpp:213-225); `ins` is
`insert_covered`. -/
def rebalanceChild (ins : Ptr → Ptr → Mem α L → Outcome (Mem α L)) (depth fuel x : Nat) (d : α)
    (s : List Ptr × Mem α L) (child : Ptr) : Outcome (List Ptr × Mem α L) :=
  (read s.2 child).bind fun c =>
  if dist x c.index < d then
    (extract P (fun p => decide (dist c.index p < dist x p)) (fun p => decide (dist c.index p > dist x p))
      depth fuel child ((s.1, []), s.2)).bind fun r =>
    (Outcome.foldl (fun m q => ins child q m) r.2 r.1.2.reverse).bind fun m => .ok (r.1.1, m)
  else .ok s

/-- `rebalance` (internal/cover_tree_builder.hpp:196-233). -/
def rebalance (ins : Ptr → Ptr → Mem α L → Outcome (Mem α L)) (depth fuel x : Nat) (parent node : Ptr)
    (m : Mem α L) : Outcome (Mem α L) :=
  (read m parent).bind fun a =>
  (forEach Prod.snd parent a.children
    (rebalanceChild P dist ins depth fuel x (B.twice (B.child a.level))) a.children ([], m)).bind fun s =>
  (read s.2 parent).bind fun a =>
  (read s.2 node).bind fun c =>
  (write s.2 node { c with level := B.down a.level }).bind fun m =>
  (Outcome.foldl (fun m q => ins node q m) m s.1.reverse).bind fun m => pushChild B parent node m

/-- `insert_covered` (internal/cover_tree_builder.hpp:148-161). -/
def insertCovered (depth : Nat) : Nat → Ptr → Ptr → Mem α L → Outcome (Mem α L)
  | 0, _, _, _ => .oof
  | fuel + 1, tree, node, m =>
    (read m node).bind fun c =>
    (findParent B dist c.index depth tree m).bind fun parent =>
    (read m parent).bind fun a =>
    if a.children = [] then pushChild B parent node m
    else rebalance B P dist (insertCovered depth fuel) depth fuel c.index parent node m

/-- The loop of `insert` (internal/cover_tree_builder.hpp:127-129). -/
def raise (depth : Nat) (level : L) : Nat → Ptr → Mem α L → Outcome (Ptr × Mem α L)
  | 0, _, _ => .oof
  | fuel + 1, tree, m =>
    (read m tree).bind fun t =>
    if B.lt t.level level then
      (removeLeaf depth tree m).bind fun r =>
      (nodeToParent B r.1 tree r.2).bind fun m => raise depth level fuel r.1 m
    else .ok (tree, m)

/-- `insert` (internal/cover_tree_builder.hpp:119-144). The result is the root of the new tree. -/
def insert [Add α] (depth fuel : Nat) (tree node : Ptr) (m : Mem α L) : Outcome (Ptr × Mem α L) :=
  (read m node).bind fun x =>
  (read m tree).bind fun t =>
  let d := dist x.index t.index
  let c := B.cover t.level
  if d > c then
    (raise B depth (B.floorLevel (c + d)) fuel tree m).bind fun r =>
    (nodeToParent B node r.1 r.2).bind fun m => .ok (node, m)
  else (insertCovered B P dist depth fuel tree node m).bind fun m => .ok (tree, m)

end Builder

/-! ### The buffers of nodes -/

/-- The dynamic memory: the nodes, the blocks that are allocated, and the number of calls of `new`. -/
structure World (α L : Type) where
  cell : Mem α L
  live : List Nat
  time : Nat

/-- `static_buffer` (internal/static_buffer.hpp:12-32): the block, the size and the capacity of `buffer_`. -/
structure Buffer where
  block : Nat
  size : Nat
  cap : Nat
  deriving DecidableEq

variable (M : Malloc) (V : StdVector)

/-- `static_buffer(size)` (internal/static_buffer.hpp:18-20). -/
def Buffer.new (size : Nat) (w : World α L) : Buffer × World α L :=
  let b := M.pick w.time w.live
  (⟨b, 0, V.reserve size⟩, ⟨w.cell, b :: w.live, w.time + 1⟩)

/-- The destructor: the nodes and the block are gone. -/
def Buffer.destroy (b : Buffer) (w : World α L) : World α L :=
  ⟨fun p => if p.1 = b.block then none else w.cell p, w.live.filter (· ≠ b.block), w.time⟩

/-- The elements of a vector that has to grow are moved to a new block. -/
def Buffer.regrow (b : Buffer) (w : World α L) : Buffer × World α L :=
  let c := M.pick w.time w.live
  (⟨c, b.size, V.grow b.size⟩,
    ⟨fun p => if p.1 = c then w.cell (b.block, p.2) else if p.1 = b.block then none else w.cell p,
      c :: w.live.filter (· ≠ b.block), w.time + 1⟩)

/-- `static_buffer::allocate` (internal/static_buffer.hpp:23-27); `blank` is the new node. -/
def Buffer.allocate (blank : Cell α L) (b : Buffer) (w : World α L) : Ptr × Buffer × World α L :=
  let r := if b.size < b.cap then (b, w) else b.regrow M V w
  ((r.1.block, r.1.size), ⟨r.1.block, r.1.size + 1, r.1.cap⟩,
    { r.2 with cell := Function.update r.2.cell (r.1.block, r.1.size) (some blank) })

/-- A new node: its vector of children is empty, the other members are not set by the code; they have the
values `level` and `max`. -/
def blank (level : L) (max : α) : Cell α L := ⟨level, max, 0, []⟩

section Build
variable [LT α] [LE α] [DecidableLT α] [DecidableLE α] (B : Leveling α L) (P : StdPartition)
  (dist : Nat → Nat → α) (max₀ : α)

/-- `create_node` (internal/cover_tree_builder.hpp:65-69). -/
def createNode (idx : Nat) (b : Buffer) (w : World α L) : Outcome (Ptr × Buffer × World α L) :=
  let r := b.allocate M V (blank B.unset max₀) w
  (read r.2.2.cell r.1).bind fun c =>
  (write r.2.2.cell r.1 { c with index := idx }).bind fun m => .ok (r.1, r.2.1, { r.2.2 with cell := m })

/-- `insert_first_two` (internal/cover_tree_builder.hpp:101-116). -/
def insertFirstTwo (b : Buffer) (w : World α L) : List Nat → Outcome (Ptr × Buffer × World α L)
  | [] => .ub
  | [i] =>
    (createNode M V B max₀ i b w).bind fun r =>
    (read r.2.2.cell r.1).bind fun c =>
    (write r.2.2.cell r.1 { c with level := B.zero }).bind fun m => .ok (r.1, r.2.1, { r.2.2 with cell := m })
  | i :: j :: _ =>
    (createNode M V B max₀ i b w).bind fun r =>
    (read r.2.2.cell r.1).bind fun c =>
    (write r.2.2.cell r.1 { c with level := B.ceilLevel (dist i j) }).bind fun m =>
    (createNode M V B max₀ j r.2.1 { r.2.2 with cell := m }).bind fun s =>
    (pushChild B r.1 s.1 s.2.2.cell).bind fun m => .ok (r.1, s.2.1, { s.2.2 with cell := m })

/-- Insertion of all points (internal/cover_tree_builder.hpp:42-45). -/
def insertAll [Add α] (depth fuel : Nat) (indices : List Nat) (b : Buffer) (w : World α L) :
    Outcome (Ptr × Buffer × World α L) :=
  (insertFirstTwo M V B dist max₀ b w indices).bind fun st =>
  Outcome.foldl (fun (st : Ptr × Buffer × World α L) i =>
    (createNode M V B max₀ i st.2.1 st.2.2).bind fun c =>
    (insert B P dist depth fuel st.1 c.1 c.2.2.cell).bind fun r =>
    .ok (r.1, c.2.1, { c.2.2 with cell := r.2 })) st (indices.drop 2)

/-- `depth_first_buffer_copy` (internal/cover_tree_builder.hpp:319-331): the nodes from `p` are copied to the
buffer `b`. -/
def bufferCopy : Nat → Ptr → Buffer × World α L → Outcome (Ptr × Buffer × World α L)
  | 0, _, _ => .oof
  | n + 1, p, s =>
    (read s.2.cell p).bind fun d =>
    let r := s.1.allocate M V (blank B.unset max₀) s.2
    (read r.2.2.cell r.1).bind fun c =>
    (write r.2.2.cell r.1 { c with index := d.index, level := d.level }).bind fun m =>
    (forEach (fun s : Buffer × World α L => s.2.cell) p d.children (fun s q =>
      (bufferCopy n q s).bind fun t =>
      (read t.2.2.cell r.1).bind fun c =>
      (write t.2.2.cell r.1 { c with children := c.children ++ [t.1] }).bind fun m =>
      .ok (t.2.1, { t.2.2 with cell := m })) d.children (r.2.1, { r.2.2 with cell := m })).bind fun s =>
    .ok (r.1, s)

/-- `max_distance` (internal/cover_tree_builder.hpp:341-350); `f` gives the distances from the point `x`. -/
def maxDistance (f : Nat → α) : Nat → Ptr → Mem α L → Outcome α
  | 0, _, _ => .oof
  | n + 1, p, m =>
    (read m p).bind fun d =>
    Outcome.foldl (fun acc q => (maxDistance f n q m).bind fun x => .ok (stdMax acc x)) (f d.index) d.children

/-- `update_max_distance` (internal/cover_tree_builder.hpp:333-339). -/
def updateMaxDistance (depth : Nat) : Nat → Ptr → Mem α L → Outcome (Mem α L)
  | 0, _, _ => .oof
  | n + 1, p, m =>
    (read m p).bind fun d =>
    (maxDistance (dist d.index) depth p m).bind fun x =>
    (write m p { d with maxDistance := x }).bind fun m =>
    forEach id p d.children (fun m q => updateMaxDistance depth n q m) d.children m

/-- `build_cover_tree_impl::operator()` (internal/cover_tree_builder.hpp:27-60), called with a new buffer by
`build_cover_tree::operator()` (361-384): `indices` is the outcome of `std::shuffle`. The results are the
members `root_node` and `allocator` of the new `cover_tree_data`. The buffers are swapped (52), so that the one
of the insertions is destroyed at the end. -/
def build [Add α] (depth fuel : Nat) (indices : List Nat) (w : World α L) :
    Outcome (Ptr × Buffer × World α L) :=
  let a := Buffer.new M V indices.length w
  (insertAll M V B P dist max₀ depth fuel indices a.1 a.2).bind fun s =>
  let c := Buffer.new M V indices.length s.2.2
  (bufferCopy M V B max₀ depth s.1 (c.1, c.2)).bind fun r =>
  (updateMaxDistance dist depth depth r.1 r.2.2.cell).bind fun m =>
  .ok (r.1, r.2.1, s.2.1.destroy { r.2.2 with cell := m })

end Build

section Search
variable {σ : Type} [LT α] [LE α] [DecidableLT α] [DecidableLE α] [Sub α]

/-- `search_nearest` (internal/cover_tree_search.hpp:36-80); `dq` gives the distances from the query. -/
def searchNearest (S : StdSorting) (V : Visitor α σ) (dq : Nat → α) (m : Mem α L) :
    Nat → Ptr → σ → Outcome σ
  | 0, _, _ => .oof
  | fuel + 1, p, s =>
    (read m p).bind fun c =>
    let d := dq c.index
    let s := if V.max s > d then V.visit s c.index d else s
    (readIndices m c.children).bind fun cs =>
    let sorted := (S.sorter (Ptr × α)).sort (fun a b => decide (a.2 < b.2)) (cs.map fun c => (c.1, dq c.2))
    Outcome.foldl (fun s q =>
      (read m q.1).bind fun c =>
      if V.max s > dq c.index - c.maxDistance then searchNearest S V dq m fuel q.1 s else .ok s) s sorted

end Search

/-! ### The object -/

/-- The member `data_` of a `cover_tree` (cover_tree.hpp:218, internal/cover_tree_data.hpp:10-23): the block of
`allocator` is `none` after it was moved from. -/
structure Object where
  buffer : Option Buffer
  root : Ptr

/-- The move constructor (cover_tree.hpp:74): the new object and the old one. The vector gives up its block;
the pointer `root_node` is copied. -/
def Object.move (o : Object) : Object × Object := (o, ⟨none, o.root⟩)

/-- The destructor. -/
def Object.destroy (o : Object) (w : World α L) : World α L :=
  match o.buffer with
  | none => w
  | some b => b.destroy w

end CoverMem

end Pico
