import Verif.Model.Header
import Verif.Model.Array

/-!
# Streams that fail (internal/stream_wrapper.hpp, internal/kd_tree_data.hpp, kd_tree.hpp)

`stream_wrapper` never looks at the state of its stream and the streams have no exceptions enabled.
`Model/Stream.lean` stops (outcome `eof`) when there is too little data.  Here the code goes on as it
really does: `std::istream::read` stores what there is and sets `failbit`, after which nothing is read
any more; `std::ostream::write` sets `badbit` when the device takes too little, after which nothing is
written any more.
-/

namespace Pico

/-! ## Reading -/

/-- A `std::istream`: the bytes still to be read, `failbit`, and how many bytes were requested so far.
The last number has no counterpart in the code: it numbers the bytes of the objects that are read, so
that each of them can have its own old value. -/
structure In where
  rest : List Byte
  fail : Bool
  asked : Nat
  deriving DecidableEq

/-- `std::istream::read` as used by `stream_wrapper::read` (stream_wrapper.hpp:31-36, 60-65): the bytes
of an object of `n` bytes after the call, and the stream.  `old` is what the memory held before. -/
def In.get (old : Nat → Byte) (n : Nat) (s : In) : List Byte × In :=
  let old := fun i => old (s.asked + i)
  if s.fail then ((List.range n).map old, { s with asked := s.asked + n })
  else (fill old n s.rest, ⟨s.rest.drop n, decide (s.rest.length < n), s.asked + n⟩)

/-- Result of reading from a stream that may fail.
* `ub`: an indeterminate value is used;
* `invalid`: the bytes have no meaning in the model: a `bool` that is neither 0 nor 1, or a number
  outside of the domain of the model such as a negative index;
* `throws`: an exception. -/
inductive Read (τ : Type) where
  | ok (v : τ) (s : In)
  | ub
  | invalid
  | throws
  | oof
  deriving DecidableEq

/-- Sequencing. -/
def Read.bind {σ τ : Type} (x : Read σ) (f : σ → In → Read τ) : Read τ :=
  match x with
  | .ok v s => f v s
  | .ub => .ub
  | .invalid => .invalid
  | .throws => .throws
  | .oof => .oof

section Wrapper
variable {τ : Type}

/-- A local variable without initialiser that is read from the stream and then used: `bool is_leaf`,
`size_type size`, `size_type sdim` (kd_tree_data.hpp:44-45, 92-95, stream_wrapper.hpp:42-45). -/
def rawUse (junk : Nat → Byte) (c : Codec τ) (s : In) : Read τ :=
  let x := s.get junk c.size
  if x.2.fail then .ub
  else match c.dec x.1 with
    | some v => .ok v x.2
    | none => .invalid

/-- An object in memory that is read from the stream and not looked at: the leaf or branch of a node
(kd_tree_data.hpp:96, 100), a coordinate of the root box (125-126), an index (stream_wrapper.hpp:46). -/
def rawKeep (old : Nat → Byte) (c : Codec τ) (s : In) : Read τ :=
  let x := s.get old c.size
  match c.dec x.1 with
  | some v => .ok v x.2
  | none => .invalid

/-- `stream_wrapper::read(size, T_* values)` (stream_wrapper.hpp:60-65). -/
def rawArray (old : Nat → Byte) (c : Codec τ) : Nat → In → Read (List τ)
  | 0, s => .ok [] s
  | n + 1, s => (rawKeep old c s).bind fun x s => (rawArray old c n s).bind fun l s => .ok (x :: l) s

/-- The same for the coordinates of a box. -/
def rawPt (old : Nat → Byte) (c : Codec τ) : (d : Nat) → In → Read (Pt τ d)
  | 0, s => .ok Fin.elim0 s
  | d + 1, s =>
    (rawKeep old c s).bind fun x s => (rawPt old c d s).bind fun p s => .ok (Fin.cons x p) s

/-- `stream_wrapper::read(std::vector<T_>& values)` (stream_wrapper.hpp:41-47).  `resize` sets the
elements to zero.  Exceptions of `resize` for sizes beyond the memory are not modelled. -/
def rawVector (junk : Nat → Byte) (sizeT : Codec Nat) (c : Codec τ) (s : In) : Read (List τ) :=
  (rawUse junk sizeT s).bind fun n s => rawArray (fun _ => 0) c n s

end Wrapper

section Data
variable {α β : Type} {d : Nat}

/-- `read_node` (kd_tree_data.hpp:90-106).  The node comes from `new` and is not initialised
(memory.hpp:66). -/
def rawNode (junk : Nat → Byte) (P : Platform α) (branch : Codec β) : Nat → In → Read (Tree β)
  | 0, _ => .oof
  | fuel + 1, s =>
    (rawUse junk P.bool s).bind fun isLeaf s =>
      if isLeaf then (rawKeep junk P.leaf s).bind fun x s => .ok (.leaf x.1 x.2) s
      else (rawKeep junk branch s).bind fun b s =>
        (rawNode junk P branch fuel s).bind fun l s =>
          (rawNode junk P branch fuel s).bind fun r s => .ok (.branch b l r) s

/-- `kd_tree_data::read` (kd_tree_data.hpp:122-128).  `old` is what the root box held before. -/
def rawData (junk old : Nat → Byte) (P : Platform α) (branch : Codec β) (d fuel : Nat) (s : In) :
    Read (TreeData α d β) :=
  (rawVector junk P.sizeT P.index s).bind fun indices s =>
    (rawPt old P.scalar d s).bind fun mn s =>
      (rawPt old P.scalar d s).bind fun mx s =>
        (rawNode junk P branch fuel s).bind fun root s => .ok ⟨indices, ⟨mn, mx⟩, root⟩ s

/-- `kd_tree_data::load` (kd_tree_data.hpp:43-52) for a compile time dimension `d`: the arrays of the
root box are not initialised (box.hpp:161-177). -/
def rawStatic (junk : Nat → Byte) (P : Platform α) (branch : Codec β) (d fuel : Nat) (s : In) :
    Read (TreeData α d β) :=
  (rawUse junk P.sizeT s).bind fun _ s => rawData junk junk P branch d fuel s

/-- `kd_tree_data::load` (kd_tree_data.hpp:43-52) for `dynamic_extent`: the vector of the root box
contains zeros (box.hpp:181-196). -/
def rawDynamic (junk : Nat → Byte) (P : Platform α) {B : Nat → Type} (branch : ∀ d, Codec (B d))
    (fuel : Nat) (s : In) : Read (Σ d, TreeData α d (B d)) :=
  (rawUse junk P.sizeT s).bind fun d s =>
    (rawData junk (fun _ => 0) P (branch d) d fuel s).bind fun t s => .ok ⟨d, t⟩ s

/-- `open_stream` and `kd_tree::load(space, filename)` (stream_wrapper.hpp:12-21, kd_tree.hpp:336-340,
350-353): `file` holds the contents of the file, or `none` if it cannot be opened.  The caller does not
see the stream. -/
def loadFile (junk : Nat → Byte) (P : Platform α) (branch : Codec β) (tag : SpaceTag α d β)
    (M : Metric α d) (N : Num α) (pts : Nat → Pt α d) (n fuel : Nat) (file : Option (List Byte)) :
    Read (KdTree α d β) :=
  match file with
  | none => .throws
  | some s => (rawStatic junk P branch d fuel ⟨s, false, 0⟩).bind fun t s => .ok ⟨tag, M, N, pts, n, t⟩ s

/-- `load_kd_tree` (_pyco_tree/kd_tree.hpp:602-606) on a stream that may end too early; see `pyLoad`. -/
def pyLoadRaw (junk0 : Fin 3 → Nat → Byte) (junk : Nat → Byte) (P : Platform α)
    (innerStride fuel : Nat) (s : List Byte) : Read (PyMetric × Σ d, TreeData α d (Branch1 α d)) :=
  match readHeader junk0 s with
  | .ok m rest =>
    if innerStride = 2 then
      (rawStatic junk P (P.branch1 2) 2 fuel ⟨rest, false, 0⟩).bind fun t s => .ok (m, ⟨2, t⟩) s
    else if innerStride = 3 then
      (rawStatic junk P (P.branch1 3) 3 fuel ⟨rest, false, 0⟩).bind fun t s => .ok (m, ⟨3, t⟩) s
    else (rawDynamic junk P P.branch1 fuel ⟨rest, false, 0⟩).bind fun t s => .ok (m, t) s
  | .oof => .oof
  | _ => .throws

end Data

/-! ## Writing -/

/-- A `std::ostream`: the bytes its device has taken, and `badbit`. -/
structure Out where
  written : List Byte
  bad : Bool
  deriving DecidableEq

/-- `std::ostream::write` (stream_wrapper.hpp:69-74, 94-99).  The device decides, from the number of
bytes it has and the number of bytes offered, how many it takes. -/
def Out.put (dev : Nat → Nat → Nat) (bs : List Byte) (s : Out) : Out :=
  if s.bad then s
  else if bs.length ≤ dev s.written.length bs.length then ⟨s.written ++ bs, false⟩
  else ⟨s.written ++ bs.take (dev s.written.length bs.length), true⟩

section Wrapper
variable {τ : Type}

/-- `stream_wrapper::write(T_ const& value)` (stream_wrapper.hpp:69-74). -/
def tryValue (pad : Nat → Byte) (dev : Nat → Nat → Nat) (c : Codec τ) (v : τ) (s : Out) : Out :=
  s.put dev (c.enc (fun i => pad (s.written.length + i)) v)

/-- `stream_wrapper::write(T_ const* values, size)` (stream_wrapper.hpp:94-99): a single call of
`std::ostream::write` for all elements. -/
def tryArray (pad : Nat → Byte) (dev : Nat → Nat → Nat) (c : Codec τ) (l : List τ) (s : Out) : Out :=
  s.put dev ((writeArray pad c l s.written).drop s.written.length)

/-- `stream_wrapper::write(std::vector<T_> const& values)` (stream_wrapper.hpp:79-83). -/
def tryVector (pad : Nat → Byte) (dev : Nat → Nat → Nat) (sizeT : Codec Nat) (c : Codec τ) (l : List τ)
    (s : Out) : Out :=
  tryArray pad dev c l (tryValue pad dev sizeT l.length s)

end Wrapper

section Data
variable {α β : Type} {d : Nat}

/-- `write_node` (kd_tree_data.hpp:109-120). -/
def tryNode (pad : Nat → Byte) (dev : Nat → Nat → Nat) (P : Platform α) (branch : Codec β) :
    Tree β → Out → Out
  | .leaf b e, s => tryValue pad dev P.leaf (b, e) (tryValue pad dev P.bool true s)
  | .branch data l r, s =>
    tryNode pad dev P branch r
      (tryNode pad dev P branch l
        (tryValue pad dev branch data (tryValue pad dev P.bool false s)))

/-- `kd_tree_data::write` and `save` (kd_tree_data.hpp:54-58, 130-135, kd_tree.hpp:367-370): returns
`void`; nothing is thrown whatever happens to the stream. -/
def trySave (pad : Nat → Byte) (dev : Nat → Nat → Nat) (P : Platform α) (branch : Codec β)
    (t : TreeData α d β) (s : Out) : Out :=
  tryNode pad dev P branch t.root
    (tryArray pad dev P.scalar (List.ofFn t.rootBox.max)
      (tryArray pad dev P.scalar (List.ofFn t.rootBox.min)
        (tryVector pad dev P.sizeT P.index t.indices
          (tryValue pad dev P.sizeT d s))))

/-- `kd_tree::save(tree, filename)` (kd_tree.hpp:356-360): what the file contains in the end.  `opens`
says whether the file can be opened.  When the local stream is destroyed its buffer is flushed, and the
device may keep only the first `kept` bytes; no error is reported. -/
def saveFile (opens : Bool) (pad : Nat → Byte) (dev : Nat → Nat → Nat) (kept : Nat) (P : Platform α)
    (branch : Codec β) (t : TreeData α d β) : Call (List Byte) :=
  if opens then .ok ((trySave pad dev P branch t ⟨[], false⟩).written.take kept) else .throws

end Data

end Pico
