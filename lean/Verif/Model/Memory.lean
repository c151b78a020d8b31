import Verif.Model.Builder
import Verif.Model.Stream
import Mathlib.Logic.Function.Basic

/-!
# Node memory (internal/memory.hpp)

Addresses of chunks are natural numbers.  An object inside a chunk is addressed by the chunk and an
index.  Reading or deleting memory that is not allocated is undefined behaviour.
-/

namespace Pico

/-- The behaviour of `new`: the `t`-th call returns an address that is not in use.  Addresses of deleted
memory may be returned again. -/
structure Malloc where
  pick : Nat → List Nat → Nat
  fresh : ∀ t l, pick t l ∉ l

/-- The dynamic memory: `live` are the addresses of the nodes of all `list_pool_resource`s that are
allocated, `prev` is the member `prev` of a node (memory.hpp:86-93), `time` counts calls of `new`. -/
structure Heap where
  time : Nat
  live : List Nat
  prev : Nat → Option Nat

/-- The empty memory. -/
def Heap.empty : Heap := ⟨0, [], fun _ => none⟩

/-- `list_pool_resource::allocate` (memory.hpp:63-68): returns the new value of `head_`. -/
def Heap.allocate (M : Malloc) (h : Heap) (head : Option Nat) : Heap × Nat :=
  let a := M.pick h.time h.live
  (⟨h.time + 1, a :: h.live, Function.update h.prev a head⟩, a)

/-- `delete`. -/
def Heap.delete (h : Heap) (a : Nat) : Heap := { h with live := h.live.filter (· ≠ a) }

/-- `list_pool_resource::release` (memory.hpp:71-79).  The first argument bounds the number of
iterations. -/
def Heap.release : Nat → Heap → Option Nat → Outcome Heap
  | _, h, none => .ok h
  | 0, _, some _ => .oof
  | fuel + 1, h, some a => if a ∈ h.live then (h.delete a).release fuel (h.prev a) else .ub

/-- The members of a `chunk_allocator` (memory.hpp:123-126): `resource_.head_`, `object_index_`,
`chunk_` (`none`: not initialised). -/
structure Obj where
  head : Option Nat
  index : Nat
  chunk : Option Nat
  deriving DecidableEq

/-- Address of an object inside a chunk. -/
abbrev Ptr := Nat × Nat

/-- `chunk_allocator()` (memory.hpp:108); `cs` is `ChunkSize_`. -/
def Obj.new (cs : Nat) : Obj := ⟨none, cs, none⟩

/-- The first half of `chunk_allocator::allocate` (memory.hpp:112-115). -/
def Obj.refill (M : Malloc) (cs : Nat) (h : Heap) (o : Obj) : Heap × Obj :=
  if o.index = cs then
    ((h.allocate M o.head).1, ⟨some (h.allocate M o.head).2, 0, some (h.allocate M o.head).2⟩)
  else (h, o)

/-- The second half (memory.hpp:117-120). -/
def Obj.take (cs : Nat) (h : Heap) (o : Obj) : Outcome (Ptr × Heap × Obj) :=
  match o.chunk with
  | none => .ub
  | some c =>
    if c ∈ h.live ∧ o.index < cs then .ok ((c, o.index), h, ⟨o.head, o.index + 1, o.chunk⟩) else .ub

/-- `chunk_allocator::allocate` (memory.hpp:111-121). -/
def Obj.allocate (M : Malloc) (cs : Nat) (h : Heap) (o : Obj) : Outcome (Ptr × Heap × Obj) :=
  (o.refill M cs h).2.take cs (o.refill M cs h).1

/-- The operations on allocator objects, which are numbered. -/
inductive MemOp where
  | construct (a : Nat)
  | allocate (a : Nat)
  /-- `a(std::move(b))` -/
  | moveConstruct (a b : Nat)
  /-- `a = std::move(b)` -/
  | moveAssign (a b : Nat)
  | destroy (a : Nat)
  deriving DecidableEq

/-- Memory and objects. -/
structure MemState where
  heap : Heap
  objs : Nat → Option Obj

/-- The start of the program. -/
def MemState.empty : MemState := ⟨.empty, fun _ => none⟩

/-- One operation.  The result of `allocate` is returned.  Programs that use an object that does not
exist, or construct one that does, are ill formed (`ub`). -/
def MemState.step (M : Malloc) (cs : Nat) (s : MemState) : MemOp → Outcome (MemState × Option Ptr)
  | .construct a =>
    match s.objs a with
    | some _ => .ub
    | none => .ok (⟨s.heap, Function.update s.objs a (some (.new cs))⟩, none)
  | .allocate a =>
    match s.objs a with
    | none => .ub
    | some o => (o.allocate M cs s.heap).bind fun (p, h, o) =>
        .ok (⟨h, Function.update s.objs a (some o)⟩, some p)
  -- implicit move constructor: resource_ with memory.hpp:44-47, the other members are copied
  | .moveConstruct a b =>
    match s.objs a, s.objs b with
    | none, some o =>
      .ok (⟨s.heap, Function.update (Function.update s.objs b (some { o with head := none })) a
        (some o)⟩, none)
    | _, _ => .ub
  -- implicit move assignment: resource_ with memory.hpp:53-57, the other members are copied
  | .moveAssign a b =>
    match s.objs a, s.objs b with
    | some oa, some ob =>
      let objs1 := Function.update s.objs a (some { oa with head := ob.head })
      match objs1 b with
      | none => .ub
      | some ob1 =>
        let ob2 : Obj := { ob1 with head := none }
        let objs2 := Function.update objs1 b (some ob2)
        match objs2 a with
        | none => .ub
        | some oa2 =>
          .ok (⟨s.heap, Function.update objs2 a
            (some { oa2 with index := ob2.index, chunk := ob2.chunk })⟩, none)
    | _, _ => .ub
  -- implicit destructor: ~list_pool_resource (memory.hpp:60)
  | .destroy a =>
    match s.objs a with
    | none => .ub
    | some o => (s.heap.release (s.heap.live.length + 1) o.head).bind fun h =>
        .ok (⟨h, Function.update s.objs a none⟩, none)

/-- A sequence of operations, with their results. -/
def MemState.run (M : Malloc) (cs : Nat) : MemState → List MemOp →
    Outcome (MemState × List (Option Ptr))
  | s, [] => .ok (s, [])
  | s, op :: ops => (s.step M cs op).bind fun (s, r) =>
      (s.run M cs ops).bind fun (s, rs) => .ok (s, r :: rs)

/-! ## Nodes in memory -/

/-- `kd_tree_node_data` (kd_tree_node.hpp:71-77). -/
inductive NodeData (β : Type) where
  | leaf (b e : Nat)
  | branch (data : β)

/-- A node (kd_tree_node.hpp:6-27, 80-126); `none` is `nullptr`. -/
structure Node (β : Type) where
  left : Option Ptr
  right : Option Ptr
  data : NodeData β

/-- `is_leaf` (kd_tree_node.hpp:11). -/
def Node.isLeaf {β : Type} (x : Node β) : Bool := x.left.isNone && x.right.isNone

/-- The memory while a tree is built: the heap, the allocator of the tree and the contents of the nodes
(`none`: indeterminate). -/
structure NodeHeap (β : Type) where
  heap : Heap
  obj : Obj
  node : Ptr → Option (Node β)

section
variable {β : Type}

/-- `allocator_.allocate()`: the new node has indeterminate contents. -/
def NodeHeap.allocate (M : Malloc) (cs : Nat) (s : NodeHeap β) : Outcome (Ptr × NodeHeap β) :=
  (s.obj.allocate M cs s.heap).bind fun (p, h, o) =>
    .ok (p, ⟨h, o, Function.update s.node p none⟩)

/-- Assignment to the members of a node. -/
def NodeHeap.set (s : NodeHeap β) (p : Ptr) (x : Node β) : NodeHeap β :=
  { s with node := Function.update s.node p (some x) }

/-- `read_node` (kd_tree_data.hpp:90-106) with its effect on the memory.  As above the members of a
branch node are assigned at once. -/
def readNodeIn {α : Type} (M : Malloc) (cs : Nat) (P : Platform α) (branch : Codec β) :
    Nat → List Byte → NodeHeap β → Load (Ptr × NodeHeap β)
  | 0, _, _ => .oof
  | fuel + 1, bytes, s =>
    match s.allocate M cs with
    | .ub => .invalid
    | .oof => .oof
    | .ok (p, s) =>
      (readValue P.bool bytes).bind fun isLeaf bytes =>
        if isLeaf then
          (readValue P.leaf bytes).bind fun x bytes =>
            .ok (p, s.set p ⟨none, none, .leaf x.1 x.2⟩) bytes
        else (readValue branch bytes).bind fun b bytes =>
          (readNodeIn M cs P branch fuel bytes s).bind fun (l, s) bytes =>
            (readNodeIn M cs P branch fuel bytes s).bind fun (r, s) bytes =>
              .ok (p, s.set p ⟨some l, some r, .branch b⟩) bytes

/-- What a traversal of the nodes from `p` sees.  All searches, `insert_leaf_range` and `write_node`
descend like this: they test `is_leaf()`, then use either `data.leaf` or `data.branch`, `left` and
`right` (shown in C129, `Model/Walk.lean`).  `none`: a node that was never assigned, the wrong member of the union, a null child, or more
than `fuel` levels. -/
def NodeHeap.tree (node : Ptr → Option (Node β)) : Nat → Ptr → Option (Tree β)
  | 0, _ => none
  | fuel + 1, p =>
    match node p with
    | none => none
    | some x =>
      if x.isLeaf then
        match x.data with
        | .leaf b e => some (.leaf b e)
        | .branch _ => none
      else
        match x.data, x.left, x.right with
        | .branch data, some l, some r =>
          match NodeHeap.tree node fuel l, NodeHeap.tree node fuel r with
          | some tl, some tr => some (.branch data tl tr)
          | _, _ => none
        | _, _, _ => none

variable {α : Type} [LT α] [LE α] [DecidableLT α] [DecidableLE α] [Add α] [Sub α] {d : Nat}

/-- `create_node` (kd_tree_builder.hpp:352-397) with its effect on the memory.  The members of a branch
node are assigned in three places in the code (`left`, `right`, `data`); no other access to the node
happens in between, so the model assigns them at once. -/
def createNodeIn (M : Malloc) (cs : Nat) (C : BuildCfg α d β) :
    Nat → Int → Nat → List Nat → Box α d → NodeHeap β →
      Outcome (Ptr × List Nat × Box α d × NodeHeap β)
  | 0, _, _, _, _, _ => .oof
  | fuel + 1, depth, offset, seg, box, s =>
    (s.allocate M cs).bind fun (p, s) =>
      if isLeaf C depth seg.length then
        .ok (p, seg, leafBox C seg box, s.set p ⟨none, none, .leaf offset (offset + seg.length)⟩)
      else
        (splitter C seg box).bind fun sp =>
          let right := box.setMin sp.dim sp.val
          let left := box.setMax sp.dim sp.val
          (createNodeIn M cs C fuel (depth + 1) offset (sp.seg.take sp.pos) left s).bind
            fun (l, segL, boxL, s) =>
              (createNodeIn M cs C fuel (depth + 1) (offset + sp.pos) (sp.seg.drop sp.pos) right s).bind
                fun (r, segR, boxR, s) =>
                  .ok (p, segL ++ segR, boxL.fitBox boxR,
                    s.set p ⟨some l, some r, .branch (C.setBranch boxL boxR sp.dim)⟩)

end

end Pico
