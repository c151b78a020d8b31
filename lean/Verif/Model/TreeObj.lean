import Verif.Model.Exhausted

/-!
# Objects of the class `kd_tree` that are built, loaded, moved and destroyed

A `kd_tree` cannot be copied (kd_tree.hpp:90-93, 99); its move operations are defaulted (kd_tree.hpp:96, 102), so they
move the members one after the other: `space_`, `metric_`, `data_` (kd_tree.hpp:410-416), and of `data_` (an aggregate)
`indices`, `root_box`, `allocator`, `root_node` (kd_tree_data.hpp:66-73).  `root_node` is a pointer and is copied.  The
metric has no state.  The memory of the point set belongs to the user's type and is not modelled: a point set is a
value, and `left` tells what stays behind when it is moved (`id` for a `std::reference_wrapper`).
-/

namespace Pico

/-- The members of a `kd_tree` (kd_tree.hpp:410-416, kd_tree_data.hpp:66-73).  `indicesMem` and `boxMem` is the memory
of the vectors (`none`: no memory; so is a box of a dimension known at compile time).  `box = none`: the coordinates
were moved away. -/
structure TreeObj (α : Type) (d : Nat) (S : Type) where
  space : S
  indicesMem : Option Nat
  indices : List Nat
  boxMem : Option Nat
  box : Option (Box α d)
  alloc : Obj
  root : Ptr

/-- The memory, the nodes in it, and the objects, which are numbered. -/
structure World (α : Type) (d : Nat) (β S : Type) where
  heap : Heap
  node : Ptr → Option (Node β)
  trees : Nat → Option (TreeObj α d S)

/-- The operations.  `build` and `load` have the arguments of the constructors. -/
inductive TreeOp (α : Type) (d : Nat) (β S : Type) where
  /-- `kd_tree a(space, …)` -/
  | build (a : Nat) (space : S) (C : BuildCfg α d β) (n : Nat) (bounds : Bounds α d) (fuel : Nat)
  /-- `kd_tree a = kd_tree::load(space, stream)` -/
  | load (a : Nat) (space : S) (fuel : Nat) (bytes : List Byte)
  /-- `kd_tree a(std::move(b))` -/
  | moveConstruct (a b : Nat)
  /-- `a = std::move(b)` -/
  | moveAssign (a b : Nat)
  | destroy (a : Nat)

variable {α : Type} {d : Nat} {β S : Type}

/-- The operations that allocate memory. -/
def TreeOp.constructs : TreeOp α d β S → Bool
  | .build .. => true
  | .load .. => true
  | _ => false

/-- The start of the program. -/
def World.empty : World α d β S := ⟨.empty, fun _ => none, fun _ => none⟩

/-- A tree that was just built or loaded; `o` is its allocator. -/
def TreeObj.ofMem (space : S) (o : Obj) (u : TreeMem × List Nat × Box α d) : TreeObj α d S :=
  ⟨space, u.1.indices, u.2.1, u.1.box, some u.2.2, o, u.1.root⟩

/-- What is left of the source of the move constructor (kd_tree.hpp:96): a vector is empty; an array (a box whose
dimension is known at compile time, box.hpp:161-175) keeps its elements; `head_` is null (memory.hpp:44-47); the other
members of the allocator, and the pointer to the root, stay. -/
def TreeObj.movedFrom (dyn : Bool) (left : S → S) (o : TreeObj α d S) : TreeObj α d S where
  space := left o.space
  indicesMem := none
  indices := []
  boxMem := none
  box := if dyn then none else o.box
  alloc := { o.alloc with head := none }
  root := o.root

/-- Change the members of an object. -/
def World.edit (w : World α d β S) (a : Nat) (f : TreeObj α d S → TreeObj α d S) : World α d β S :=
  { w with trees := Function.update w.trees a ((w.trees a).map f) }

/-- A vector gives its memory back. -/
def World.freeVec (w : World α d β S) (v : Option Nat) : Outcome (World α d β S) :=
  match v with
  | none => .ok w
  | some x => if x ∈ w.heap.live then .ok { w with heap := w.heap.delete x } else .ub

/-- The defaulted move assignment (kd_tree.hpp:102), member by member.  `a = b` is possible.  A vector that is assigned
to gives its own memory back and takes the one of the source, which is empty then (with `a = b` the vector is empty in
the end, as in libstdc++; the standard leaves it unspecified).  An array is copied.  The allocator: memory.hpp:53-57,
the other members are copied. -/
def World.moveAssign (dyn : Bool) (left : S → S) (w : World α d β S) (a b : Nat) : Outcome (World α d β S) :=
  match w.trees a, w.trees b with
  | some oa, some ob =>
    -- space_
    let w := w.edit a fun o => { o with space := ob.space }
    let w := w.edit b fun o => { o with space := left o.space }
    -- data_.indices
    (w.freeVec oa.indicesMem).bind fun w =>
      let w := w.edit a fun o => { o with indicesMem := ob.indicesMem, indices := ob.indices }
      let w := w.edit b fun o => { o with indicesMem := none, indices := [] }
      -- data_.root_box
      (w.freeVec oa.boxMem).bind fun w =>
        let w := w.edit a fun o => { o with boxMem := ob.boxMem, box := ob.box }
        let w := w.edit b fun o => { o with boxMem := none, box := if dyn then none else o.box }
        -- data_.allocator
        let w := w.edit a fun o => { o with alloc := { o.alloc with head := ob.alloc.head } }
        let w := w.edit b fun o => { o with alloc := { o.alloc with head := none } }
        let w := w.edit a fun o => { o with alloc := { o.alloc with index := ob.alloc.index, chunk := ob.alloc.chunk } }
        -- data_.root_node
        .ok (w.edit a fun o => { o with root := ob.root })
  | _, _ => .ub

/-- The constructors: an exception leaves no object. -/
def World.constructed {υ : Type} (w : World α d β S) (a : Nat) (space : S) (f : υ → TreeMem × List Nat × Box α d)
    (x : Try (NodeHeap β) υ) : Outcome (World α d β S × Bool) :=
  match x with
  | .ok u s => .ok (⟨s.heap, s.node, Function.update w.trees a (some (.ofMem space s.obj (f u)))⟩, false)
  | .throws s => .ok (⟨s.heap, s.node, w.trees⟩, true)
  | .ub => .ub
  | .oof => .oof

/-- What a user of the tree `a` reads: the const member functions (searches, `leaf_ranges`, `save`, `space`) use the
point set, the indices, the box and the nodes from the root on.  `none`: some of it is not there. -/
def World.look (w : World α d β S) (fuel a : Nat) : Option (TreeData α d β × S) :=
  match w.trees a with
  | none => none
  | some o =>
    if ∀ x ∈ o.boxMem.toList ++ o.indicesMem.toList, x ∈ w.heap.live then
      match o.box, NodeHeap.tree (fun p => if p.1 ∈ w.heap.live then w.node p else none) fuel o.root with
      | some box, some t => some (⟨o.indices, box, t⟩, o.space)
      | _, _ => none
    else none

/-- The chunks of an allocator: those its destructor would delete (memory.hpp:71-79). -/
def Heap.chunks (h : Heap) : Nat → Option Nat → List Nat
  | 0, _ => []
  | _ + 1, none => []
  | fuel + 1, some a => a :: h.chunks fuel (h.prev a)

variable [LT α] [LE α] [DecidableLT α] [DecidableLE α] [Add α] [Sub α]

/-- One operation; the result tells if it threw.  Programs that use an object that does not exist, or construct one that
does, are ill formed (`ub`). -/
def World.step (M : Malloc) (fails : Nat → Nat → Bool) (cs : Nat) (dyn : Bool) (left : S → S) (P : Platform α)
    (branch : Codec β) (w : World α d β S) : TreeOp α d β S → Outcome (World α d β S × Bool)
  -- kd_tree.hpp:76-88
  | .build a space C n bounds fuel =>
    match w.trees a with
    | some _ => .ub
    | none => w.constructed a space id (buildTry M fails cs dyn C n bounds fuel w.heap w.node)
  -- kd_tree.hpp:345-348, 367-371
  | .load a space fuel bytes =>
    match w.trees a with
    | some _ => .ub
    | none => w.constructed a space Prod.fst (loadTry M fails cs dyn P branch d fuel bytes w.heap w.node)
  -- kd_tree.hpp:96
  | .moveConstruct a b =>
    match w.trees a, w.trees b with
    | none, some o => .ok ({ w with
        trees := Function.update (Function.update w.trees b (some (o.movedFrom dyn left))) a (some o) }, false)
    | _, _ => .ub
  -- kd_tree.hpp:102
  | .moveAssign a b => (w.moveAssign dyn left a b).bind fun w => .ok (w, false)
  -- the implicit destructor
  | .destroy a =>
    match w.trees a with
    | none => .ub
    | some o => (freeTree ⟨o.indicesMem, o.boxMem, o.root⟩ ⟨w.heap, o.alloc, w.node⟩).bind fun s =>
        .ok (⟨s.heap, s.node, Function.update w.trees a none⟩, false)

/-- A sequence of operations. -/
def World.run (M : Malloc) (fails : Nat → Nat → Bool) (cs : Nat) (dyn : Bool) (left : S → S) (P : Platform α)
    (branch : Codec β) : World α d β S → List (TreeOp α d β S) → Outcome (World α d β S × List Bool)
  | w, [] => .ok (w, [])
  | w, op :: ops => (w.step M fails cs dyn left P branch op).bind fun (w, r) =>
      (w.run M fails cs dyn left P branch ops).bind fun (w, rs) => .ok (w, r :: rs)

end Pico
