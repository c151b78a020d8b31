import Verif.Model.Memory

/-!
# When memory runs out

Building and loading a tree with a `new` that may fail.  A failing `new` throws `std::bad_alloc`; a request beyond
`max_size()` throws `std::length_error`, which is the same here: an exception, before anything was allocated.  The
objects that own memory are the vectors (the indices, and the coordinates of boxes if the dimension is only known at
run time, box.hpp:180-193), and the chunks of the allocator.  When an exception leaves a scope, the objects of the
scope are destroyed in reverse order of their construction.  All memory is in one heap.  The contents of vectors are
values of the model; moving a vector passes its memory on and never allocates.
-/

namespace Pico

/-- The result of code that works on a state `σ` and may throw.
* `ok v s`: a value and the new state;
* `throws s`: an exception is on its way to the caller;
* `ub`: undefined behaviour.  For `load` also bytes that are no value, and the end of the stream (see `Load`);
* `oof`: more steps than the fuel allows. -/
inductive Try (σ τ : Type) where
  | ok (v : τ) (s : σ)
  | throws (s : σ)
  | ub
  | oof

namespace Try
variable {σ τ υ : Type}

/-- Sequencing. -/
def bind (x : Try σ τ) (f : τ → σ → Try σ υ) : Try σ υ :=
  match x with
  | .ok v s => f v s
  | .throws s => .throws s
  | .ub => .ub
  | .oof => .oof

/-- Something that does not throw. -/
def lift (x : Outcome τ) (s : σ) : Try σ τ :=
  match x with
  | .ok v => .ok v s
  | .ub => .ub
  | .oof => .oof

/-- Reading from a stream that does not throw. -/
def read (x : Load τ) (s : σ) : Try σ (τ × List Byte) :=
  match x with
  | .ok v rest => .ok (v, rest) s
  | .eof => .ub
  | .invalid => .ub
  | .throws => .ub
  | .oof => .oof

/-- A destructor at the end of a scope, if `x` is left by an exception. -/
def onThrow (x : Try σ τ) (destroy : σ → Outcome σ) : Try σ τ :=
  match x with
  | .ok v s => .ok v s
  | .throws s =>
    match destroy s with
    | .ok s => .throws s
    | .ub => .ub
    | .oof => .oof
  | .ub => .ub
  | .oof => .oof

/-- A destructor at the end of a scope, however `x` ends. -/
def atEnd (x : Try σ τ) (destroy : σ → Outcome σ) : Try σ τ :=
  (x.onThrow destroy).bind fun v s =>
    match destroy s with
    | .ok s => .ok v s
    | .ub => .ub
    | .oof => .oof

end Try

section
variable {β : Type}

/-- A failed call of `new`: nothing changes. -/
def NodeHeap.failed (s : NodeHeap β) : NodeHeap β := { s with heap := { s.heap with time := s.heap.time + 1 } }

/-- `std::vector<T>(n)`, a copy of a vector of `n` elements, or `resize(n)` of an empty vector: no memory for `n = 0`,
one call of `new` otherwise.  `fails t n`: the `t`-th call fails when memory for `n` objects is requested. -/
def newVec (M : Malloc) (fails : Nat → Nat → Bool) (n : Nat) (s : NodeHeap β) :
    Try (NodeHeap β) (Option Nat) :=
  if n = 0 then .ok none s
  else if fails s.heap.time n then .throws s.failed
  else .ok (some (s.heap.allocate M none).2) { s with heap := (s.heap.allocate M none).1 }

/-- The destructor of a vector. -/
def freeVec (v : Option Nat) (s : NodeHeap β) : Outcome (NodeHeap β) :=
  match v with
  | none => .ok s
  | some a => if a ∈ s.heap.live then .ok { s with heap := s.heap.delete a } else .ub

/-- The number of elements of the vector in a box of dimension `d` (box.hpp:161-193): `dyn` tells if the dimension is
only known at run time. -/
def boxSize (dyn : Bool) (d : Nat) : Nat := if dyn then d * 2 else 0

/-- `chunk_allocator::allocate` (memory.hpp:111-121) with `list_pool_resource::allocate` (memory.hpp:63-68), whose
`new` may fail before any member was changed. -/
def allocateTry (M : Malloc) (fails : Nat → Nat → Bool) (cs : Nat) (s : NodeHeap β) : Try (NodeHeap β) Ptr :=
  if s.obj.index = cs ∧ fails s.heap.time cs then .throws s.failed
  else
    match s.allocate M cs with
    | .ok (p, s) => .ok p s
    | .ub => .ub
    | .oof => .oof

/-- `~chunk_allocator()`, that is `~list_pool_resource()` (memory.hpp:60, 71-79). -/
def freeNodes (s : NodeHeap β) : Outcome (NodeHeap β) :=
  (s.heap.release (s.heap.live.length + 1) s.obj.head).bind fun h =>
    .ok ⟨h, { s.obj with head := none }, s.node⟩

/-- The memory of a `kd_tree_data` (kd_tree_data.hpp:66-73) besides its allocator: the vector `indices`, the vector in
`root_box`, and the root node. -/
structure TreeMem where
  indices : Option Nat
  box : Option Nat
  root : Ptr

/-- `~kd_tree_data()`: the members in reverse order. -/
def freeTree (T : TreeMem) (s : NodeHeap β) : Outcome (NodeHeap β) :=
  (freeNodes s).bind fun s => (freeVec T.box s).bind fun s => freeVec T.indices s

/-- `read_node` (kd_tree_data.hpp:90-106). -/
def readNodeTry {α : Type} (M : Malloc) (fails : Nat → Nat → Bool) (cs : Nat) (P : Platform α) (branch : Codec β) :
    Nat → List Byte → NodeHeap β → Try (NodeHeap β) (Ptr × List Byte)
  | 0, _, _ => .oof
  | fuel + 1, bytes, s =>
    (allocateTry M fails cs s).bind fun p s =>
      (Try.read (readValue P.bool bytes) s).bind fun (isLeaf, bytes) s =>
        if isLeaf then
          (Try.read (readValue P.leaf bytes) s).bind fun (x, bytes) s =>
            .ok (p, bytes) (s.set p ⟨none, none, .leaf x.1 x.2⟩)
        else (Try.read (readValue branch bytes) s).bind fun (b, bytes) s =>
          (readNodeTry M fails cs P branch fuel bytes s).bind fun (l, bytes) s =>
            (readNodeTry M fails cs P branch fuel bytes s).bind fun (r, bytes) s =>
              .ok (p, bytes) (s.set p ⟨some l, some r, .branch b⟩)

/-- `stream_wrapper::read(std::vector<T_>& values)` (stream_wrapper.hpp:41-47) into an empty vector: `resize` comes
before the elements are read.  If it throws, or an exception follows, the vector is destroyed by its owner. -/
def readVectorTry {τ : Type} (M : Malloc) (fails : Nat → Nat → Bool) (sizeT : Codec Nat) (c : Codec τ)
    (bytes : List Byte) (s : NodeHeap β) : Try (NodeHeap β) ((Option Nat × List τ) × List Byte) :=
  (Try.read (readValue sizeT bytes) s).bind fun (n, bytes) s =>
    (newVec M fails n s).bind fun v s =>
      (Try.read (readArray c n bytes) s).bind fun (l, bytes) s => .ok ((v, l), bytes) s

/-- `kd_tree_data::read` (kd_tree_data.hpp:122-128) with the members of the `kd_tree_data` constructed in `load`
(kd_tree_data.hpp:47-48): the memory of the box is `vb`, the indices are empty, the allocator is new. -/
def readDataTry {α : Type} (M : Malloc) (fails : Nat → Nat → Bool) (cs : Nat) (P : Platform α) (branch : Codec β)
    (d fuel : Nat) (vb : Option Nat) (bytes : List Byte) (s : NodeHeap β) :
    Try (NodeHeap β) ((TreeMem × List Nat × Box α d) × List Byte) :=
  (readVectorTry M fails P.sizeT P.index bytes s).bind fun ((vi, indices), bytes) s =>
    -- from here on an exception destroys the allocator and the indices (the box: see `loadTry`)
    ((Try.read (readPt P.scalar d bytes) s).bind fun (mn, bytes) s =>
      (Try.read (readPt P.scalar d bytes) s).bind fun (mx, bytes) s =>
        (readNodeTry M fails cs P branch fuel bytes s).bind fun (root, bytes) s =>
          .ok ((⟨vi, vb, root⟩, indices, ⟨mn, mx⟩), bytes) s).onThrow fun s =>
      (freeNodes s).bind fun s => freeVec vi s

/-- `kd_tree_data::load` (kd_tree_data.hpp:43-52) for a dimension `d` that is known at compile time (`dyn = false`: the
box needs no memory), or for one that is read from the stream (`dyn = true`: the type of branches depends on it in the
model, so the caller passes `d`, and a different dimension in the stream is not covered).  If `read` throws, the local
`kd_tree_data` is destroyed: first the allocator, then the box, then the indices.  Here the box comes last; the order
makes no difference to the memory that is left. -/
def loadTry {α : Type} (M : Malloc) (fails : Nat → Nat → Bool) (cs : Nat) (dyn : Bool) (P : Platform α)
    (branch : Codec β) (d fuel : Nat) (bytes : List Byte) (h : Heap) (node : Ptr → Option (Node β)) :
    Try (NodeHeap β) ((TreeMem × List Nat × Box α d) × List Byte) :=
  (Try.read (readValue P.sizeT bytes) ⟨h, .new cs, node⟩).bind fun (_, bytes) s =>
    (newVec M fails (boxSize dyn d) s).bind fun vb s =>
      (readDataTry M fails cs P branch d fuel vb bytes s).onThrow (freeVec vb)

variable {α : Type} [LT α] [LE α] [DecidableLT α] [DecidableLE α] [Add α] [Sub α] {d : Nat}

/-- `create_node` (kd_tree_builder.hpp:352-397).  The box `right` (line 379) is a local variable of the branch; its
copy is made after the splitter was called. -/
def createNodeTry (M : Malloc) (fails : Nat → Nat → Bool) (cs : Nat) (dyn : Bool) (C : BuildCfg α d β) :
    Nat → Int → Nat → List Nat → Box α d → NodeHeap β → Try (NodeHeap β) (Ptr × List Nat × Box α d)
  | 0, _, _, _, _, _ => .oof
  | fuel + 1, depth, offset, seg, box, s =>
    (allocateTry M fails cs s).bind fun p s =>
      if isLeaf C depth seg.length then
        .ok (p, seg, leafBox C seg box) (s.set p ⟨none, none, .leaf offset (offset + seg.length)⟩)
      else
        (Try.lift (splitter C seg box) s).bind fun sp s =>
          (newVec M fails (boxSize dyn d) s).bind fun v s =>
            ((createNodeTry M fails cs dyn C fuel (depth + 1) offset (sp.seg.take sp.pos)
                (box.setMax sp.dim sp.val) s).bind fun (l, segL, boxL) s =>
              (createNodeTry M fails cs dyn C fuel (depth + 1) (offset + sp.pos) (sp.seg.drop sp.pos)
                  (box.setMin sp.dim sp.val) s).bind fun (r, segR, boxR) s =>
                .ok (p, segL ++ segR, boxL.fitBox boxR)
                  (s.set p ⟨some l, some r, .branch (C.setBranch boxL boxR sp.dim)⟩)).atEnd (freeVec v)

/-- `build_kd_tree_impl::operator()` (kd_tree_builder.hpp:345-348): the local copy of the box. -/
def createRootTry (M : Malloc) (fails : Nat → Nat → Bool) (cs : Nat) (dyn : Bool) (C : BuildCfg α d β) (fuel n : Nat)
    (rootBox : Box α d) (s : NodeHeap β) : Try (NodeHeap β) (Ptr × List Nat × Box α d) :=
  (newVec M fails (boxSize dyn d) s).bind fun v s =>
    (createNodeTry M fails cs dyn C fuel 0 0 (List.range n) rootBox s).atEnd (freeVec v)

/-- `build_kd_tree::operator()` (kd_tree_builder.hpp:471-495).  The locals are `indices`, `root_box` and `allocator`.
The result takes over the memory of `indices` and of `allocator`, and gets a copy of `root_box`.  If that copy fails,
the allocator was not yet moved and the memory of the indices belongs to the member of the result, which is destroyed
by the exception. -/
def buildTry (M : Malloc) (fails : Nat → Nat → Bool) (cs : Nat) (dyn : Bool) (C : BuildCfg α d β) (n : Nat)
    (bounds : Bounds α d) (fuel : Nat) (h : Heap) (node : Ptr → Option (Node β)) :
    Try (NodeHeap β) (TreeMem × List Nat × Box α d) :=
  let rootBox := boxFromBounds C.N C.pts n bounds
  (newVec M fails n ⟨h, .new cs, node⟩).bind fun vi s =>
    ((newVec M fails (boxSize dyn d) s).bind fun vb s =>
      (((createRootTry M fails cs dyn C fuel n rootBox s).bind fun (root, indices, _) s =>
        (newVec M fails (boxSize dyn d) s).bind fun vm s =>
          .ok (⟨vi, vm, root⟩, indices, rootBox) s).onThrow freeNodes).atEnd (freeVec vb)).onThrow (freeVec vi)

end

end Pico
