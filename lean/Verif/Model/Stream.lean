import Verif.Model.KdTree
import Mathlib.Data.Fin.Tuple.Basic

/-!
# Saving and loading (internal/stream_wrapper.hpp, internal/kd_tree_data.hpp)

A stream is the list of bytes that have been written, respectively that can still be read.
`reinterpret_cast<char*>(&value)` exposes the object representation of a trivially copyable type;
`Codec` describes such representations.  Bytes of an object that do not belong to its value (padding
between struct members) have arbitrary contents: they are supplied by a function from stream
positions to bytes over which all theorems quantify.
-/

namespace Pico

abbrev Byte := UInt8

/-- The object representation of a type: `sizeof`, `alignof`, the bytes of a value (the first argument
supplies padding bytes), and the value of a byte sequence (`none`: not a value of the type, or not
one that has a meaning in the model). -/
structure Codec (τ : Type) where
  size : Nat
  align : Nat
  enc : (Nat → Byte) → τ → List Byte
  dec : List Byte → Option τ

/-- `n` bytes in little endian order. -/
def leBytes : Nat → Nat → List Byte
  | 0, _ => []
  | n + 1, v => UInt8.ofNat (v % 256) :: leBytes n (v / 256)

/-- The number represented by bytes in little endian order. -/
def leValue : List Byte → Nat
  | [] => 0
  | b :: l => b.toNat + 256 * leValue l

/-- The padding bytes at offsets `[start, start + n)`. -/
def padBytes (pad : Nat → Byte) (start n : Nat) : List Byte :=
  (List.range n).map fun i => pad (start + i)

/-- Number of bytes from offset `off` to the next multiple of `align`. -/
def gapTo (off align : Nat) : Nat := (align - off % align) % align

namespace Codec
variable {σ τ : Type}

/-- Unsigned integer of `w` bytes, little endian (`std::size_t`: `w = 8`, `std::uint32_t`: `w = 4`). -/
def unsigned (w : Nat) : Codec Nat where
  size := w
  align := w
  enc _ v := leBytes w v
  dec bs := some (leValue bs)

/-- Non-negative value of a signed (two's complement) integer of `w` bytes, little endian (`int`:
`w = 4`).  A negative index has no meaning in the model: `none`. -/
def signed (w : Nat) : Codec Nat where
  size := w
  align := w
  enc _ v := leBytes w v
  dec bs := if leValue bs < 2 ^ (8 * w - 1) then some (leValue bs) else none

/-- `bool`: one byte, `0` or `1`; any other byte is not a value. -/
def bool : Codec Bool where
  size := 1
  align := 1
  enc _ b := [if b then 1 else 0]
  dec bs := if bs = [1] then some true else if bs = [0] then some false else none

/-- Two consecutive members of a struct, the second one aligned. -/
def seq (a : Codec σ) (b : Codec τ) : Codec (σ × τ) where
  size := a.size + gapTo a.size b.align + b.size
  align := max a.align b.align
  enc pad v := a.enc pad v.1 ++ padBytes pad a.size (gapTo a.size b.align) ++
    b.enc (fun i => pad (a.size + gapTo a.size b.align + i)) v.2
  dec bs :=
    match a.dec (bs.take a.size), b.dec (bs.drop (a.size + gapTo a.size b.align)) with
    | some x, some y => some (x, y)
    | _, _ => none

/-- End of a struct: `sizeof` is a multiple of the alignment. -/
def close (a : Codec σ) : Codec σ where
  size := a.size + gapTo a.size a.align
  align := a.align
  enc pad v := a.enc pad v ++ padBytes pad a.size (gapTo a.size a.align)
  dec bs := a.dec (bs.take a.size)

/-- Another name for the values of a type. -/
def view (a : Codec σ) (fwd : τ → σ) (bwd : σ → Option τ) : Codec τ where
  size := a.size
  align := a.align
  enc pad v := a.enc pad (fwd v)
  dec bs := (a.dec bs).bind bwd

end Codec

/-- The types whose representation the platform determines: `std::size_t`, `bool`, the index type,
`int`, the scalar type. -/
structure Platform (α : Type) where
  sizeT : Codec Nat
  bool : Codec Bool
  index : Codec Nat
  int : Codec Nat
  scalar : Codec α

/-- A 64-bit little endian platform with `int` as the index type. -/
def Platform.le64 {α : Type} (scalar : Codec α) : Platform α where
  sizeT := .unsigned 8
  bool := .bool
  index := .signed 4
  int := .signed 4
  scalar := scalar

namespace Platform
variable {α : Type}

/-- `kd_tree_leaf` (kd_tree_node.hpp:30-39). -/
def leaf (P : Platform α) : Codec (Nat × Nat) := (P.index.seq P.index).close

/-- `int split_dim` (kd_tree_node.hpp:45, 58).  A value outside of `[0, sdim)` has no meaning. -/
def splitDim (P : Platform α) (d : Nat) : Codec (Fin d) :=
  P.int.view Fin.val fun v => if h : v < d then some ⟨v, h⟩ else none

/-- `kd_tree_branch_single` (kd_tree_node.hpp:42-50). -/
def branch1 (P : Platform α) (d : Nat) : Codec (Branch1 α d) :=
  (((P.splitDim d).seq P.scalar).seq P.scalar).close.view
    (fun b => ((b.splitDim, b.leftMax), b.rightMin)) fun v => some ⟨v.1.1, v.1.2, v.2⟩

/-- `kd_tree_branch_double` (kd_tree_node.hpp:55-67). -/
def branch2 (P : Platform α) (d : Nat) : Codec (Branch2 α d) :=
  (((((P.splitDim d).seq P.scalar).seq P.scalar).seq P.scalar).seq P.scalar).close.view
    (fun b => ((((b.splitDim, b.leftMin), b.leftMax), b.rightMin), b.rightMax))
    fun v => some ⟨v.1.1.1.1, v.1.1.1.2, v.1.1.2, v.1.2, v.2⟩

end Platform

/-- Result of reading from a stream.
* `ok v rest`: the value and the bytes not yet read;
* `eof`: the stream had fewer bytes than requested.  `stream_.read` then leaves (part of) the value
  unset and the code goes on without a check (stream_wrapper.hpp:33-36, 62-65), so an indeterminate
  value is used;
* `invalid`: the bytes are not a value of the requested type, e.g. a `bool` that is neither 0 nor 1;
* `throws`: an exception;
* `oof`: the recursion did not finish within the given number of nested calls. -/
inductive Load (τ : Type) where
  | ok (v : τ) (rest : List Byte)
  | eof
  | invalid
  | throws
  | oof
  deriving DecidableEq

/-- Sequencing. -/
def Load.bind {σ τ : Type} (x : Load σ) (f : σ → List Byte → Load τ) : Load τ :=
  match x with
  | .ok v rest => f v rest
  | .eof => .eof
  | .invalid => .invalid
  | .throws => .throws
  | .oof => .oof

section Wrapper
variable {τ : Type}

/-- `stream_wrapper::read(T_& value)` (stream_wrapper.hpp:31-36). -/
def readValue (c : Codec τ) (s : List Byte) : Load τ :=
  if s.length < c.size then .eof
  else match c.dec (s.take c.size) with
    | some v => .ok v (s.drop c.size)
    | none => .invalid

/-- `stream_wrapper::read(size, T_* values)` (stream_wrapper.hpp:60-65): consecutive elements. -/
def readArray (c : Codec τ) : Nat → List Byte → Load (List τ)
  | 0, s => .ok [] s
  | n + 1, s => (readValue c s).bind fun x s => (readArray c n s).bind fun l s => .ok (x :: l) s

/-- The same for the coordinates of a box. -/
def readPt (c : Codec τ) : (d : Nat) → List Byte → Load (Pt τ d)
  | 0, s => .ok Fin.elim0 s
  | d + 1, s => (readValue c s).bind fun x s => (readPt c d s).bind fun p s => .ok (Fin.cons x p) s

/-- `stream_wrapper::read(std::vector<T_>& values)` (stream_wrapper.hpp:41-47).  Exceptions of
`resize` for sizes beyond the memory are not modelled. -/
def readVector (sizeT : Codec Nat) (c : Codec τ) (s : List Byte) : Load (List τ) :=
  (readValue sizeT s).bind fun n s => readArray c n s

/-- `stream_wrapper::write(T_ const& value)` (stream_wrapper.hpp:69-74). -/
def writeValue (pad : Nat → Byte) (c : Codec τ) (v : τ) (out : List Byte) : List Byte :=
  out ++ c.enc (fun i => pad (out.length + i)) v

/-- `stream_wrapper::write(T_ const* values, size)` (stream_wrapper.hpp:94-99). -/
def writeArray (pad : Nat → Byte) (c : Codec τ) (l : List τ) (out : List Byte) : List Byte :=
  l.foldl (fun out x => writeValue pad c x out) out

/-- `stream_wrapper::write(std::vector<T_> const& values)` (stream_wrapper.hpp:79-83). -/
def writeVector (pad : Nat → Byte) (sizeT : Codec Nat) (c : Codec τ) (l : List τ)
    (out : List Byte) : List Byte :=
  writeArray pad c l (writeValue pad sizeT l.length out)

end Wrapper

section Data
variable {α β : Type} {d : Nat}

/-- `read_node` (kd_tree_data.hpp:90-106).  The fuel bounds the recursion depth. -/
def readNode (P : Platform α) (branch : Codec β) : Nat → List Byte → Load (Tree β)
  | 0, _ => .oof
  | fuel + 1, s =>
    (readValue P.bool s).bind fun isLeaf s =>
      if isLeaf then (readValue P.leaf s).bind fun x s => .ok (.leaf x.1 x.2) s
      else (readValue branch s).bind fun b s =>
        (readNode P branch fuel s).bind fun l s =>
          (readNode P branch fuel s).bind fun r s => .ok (.branch b l r) s

/-- `write_node` (kd_tree_data.hpp:109-120). -/
def writeNode (pad : Nat → Byte) (P : Platform α) (branch : Codec β) :
    Tree β → List Byte → List Byte
  | .leaf b e, out => writeValue pad P.leaf (b, e) (writeValue pad P.bool true out)
  | .branch data l r, out =>
    writeNode pad P branch r
      (writeNode pad P branch l
        (writeValue pad branch data (writeValue pad P.bool false out)))

/-- `kd_tree_data::read` (kd_tree_data.hpp:122-128). -/
def readData (P : Platform α) (branch : Codec β) (d fuel : Nat) (s : List Byte) :
    Load (TreeData α d β) :=
  (readVector P.sizeT P.index s).bind fun indices s =>
    (readPt P.scalar d s).bind fun mn s =>
      (readPt P.scalar d s).bind fun mx s =>
        (readNode P branch fuel s).bind fun root s => .ok ⟨indices, ⟨mn, mx⟩, root⟩ s

/-- `kd_tree_data::write` (kd_tree_data.hpp:130-135). -/
def writeData (pad : Nat → Byte) (P : Platform α) (branch : Codec β) (t : TreeData α d β)
    (out : List Byte) : List Byte :=
  writeNode pad P branch t.root
    (writeArray pad P.scalar (List.ofFn t.rootBox.max)
      (writeArray pad P.scalar (List.ofFn t.rootBox.min)
        (writeVector pad P.sizeT P.index t.indices out)))

/-- `kd_tree_data::save` (kd_tree_data.hpp:54-58, kd_tree.hpp:367-370). -/
def saveData (pad : Nat → Byte) (P : Platform α) (branch : Codec β) (t : TreeData α d β)
    (out : List Byte) : List Byte :=
  writeData pad P branch t (writeValue pad P.sizeT d out)

/-- `kd_tree_data::load` (kd_tree_data.hpp:43-52) for a compile time dimension `d`: `box_storage`
ignores the stored dimension (box.hpp:162). -/
def loadStatic (P : Platform α) (branch : Codec β) (d fuel : Nat) (s : List Byte) :
    Load (TreeData α d β) :=
  (readValue P.sizeT s).bind fun _ s => readData P branch d fuel s

/-- `kd_tree_data::load` (kd_tree_data.hpp:43-52) for `dynamic_extent`: the box gets the stored
dimension (box.hpp:181).  The type of branches depends on the dimension in the model. -/
def loadDynamic (P : Platform α) {B : Nat → Type} (branch : ∀ d, Codec (B d)) (fuel : Nat)
    (s : List Byte) : Load (Σ d, TreeData α d (B d)) :=
  (readValue P.sizeT s).bind fun d s =>
    (readData P (branch d) d fuel s).bind fun t s => .ok ⟨d, t⟩ s

/-- `kd_tree::load(space, stream)` (kd_tree.hpp:350-353, 375-378): the space is given by the caller,
the metric is default constructed, the data come from the stream. -/
def KdTree.load (P : Platform α) (branch : Codec β) (tag : SpaceTag α d β) (M : Metric α d)
    (N : Num α) (pts : Nat → Pt α d) (n fuel : Nat) (s : List Byte) : Load (KdTree α d β) :=
  (loadStatic P branch d fuel s).bind fun t s => .ok ⟨tag, M, N, pts, n, t⟩ s

/-- `kd_tree::save(tree, stream)` (kd_tree.hpp:367-370). -/
def KdTree.save (pad : Nat → Byte) (P : Platform α) (branch : Codec β) (T : KdTree α d β)
    (out : List Byte) : List Byte :=
  saveData pad P branch T.data out

end Data

end Pico
