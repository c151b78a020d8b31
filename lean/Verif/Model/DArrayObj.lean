import Verif.Model.DArray
import Mathlib.Logic.Function.Basic

/-!
# DArray objects and the memory of their elements (_pyco_tree/darray.hpp, def_darray.cpp, kd_tree.hpp)

Each element of a `DArray` is a `std::vector` with a block of memory.  Indexing and iterating give NumPy arrays that
show such a block without owning it (darray.hpp:39-62).  Here are the contents of the blocks; who keeps whom alive is in
`Model/Lifetime.lean`.  Blocks and objects are never given the same number twice.
-/

namespace Pico.Darr

/-- The types that a `darray` supports (darray.hpp:200-210): `neighbor_f`, `neighbor_d` and `int`. -/
inductive Elt where
  | neighborF | neighborD | int
  deriving DecidableEq

section Object
variable {γ : Type}

/-- `darray::impl_` (darray.hpp:285): null, or a `darray_impl<T_>` (30-89) with the type `T_` that it was made for. -/
abbrev Impl (γ : Type) := Option (Elt × List γ)

/-- `darray() = default` (darray.hpp:194). -/
def null : Impl γ := none

/-- `darray(std::vector<std::vector<T_>>)` and `reset` (darray.hpp:196-198, 212-215). -/
def ofVector (t : Elt) (xs : List γ) : Impl γ := some (t, xs)

/-- `darray(pybind11::dtype)` (darray.hpp:200-210); `none` is any other dtype. -/
def ofDtype : Option Elt → Call (Impl γ)
  | some t => .ok (ofVector t [])
  | none => .throws

/-- The move constructor (implicit, from the `std::unique_ptr`): the new object and what is left of the source. -/
def move (a : Impl γ) : Impl γ × Impl γ := (a, null)

/-- `data<T_>()` (darray.hpp:229-259). -/
def data (t : Elt) : Impl γ → Call (List γ)
  | none => .throws
  | some (t', xs) => if t' = t then .ok xs else .throws

/-- `data_unchecked<T_>()` (darray.hpp:261-269): a `static_cast` of whatever the pointer is. -/
def dataUnchecked (t : Elt) : Impl γ → Call (List γ)
  | none => .ub
  | some (t', xs) => if t' = t then .ok xs else .ub

/-- `size()` (darray.hpp:223, 77). -/
def size : Impl γ → Call Nat
  | none => .ub
  | some (_, xs) => .ok xs.length

/-- `empty()` (darray.hpp:225, 79). -/
def empty : Impl γ → Call Bool
  | none => .ub
  | some (_, xs) => .ok xs.isEmpty

/-- `dtype()` (darray.hpp:227, 81). -/
def dtype : Impl γ → Call Elt
  | none => .ub
  | some (t, _) => .ok t

/-- `operator[]` (darray.hpp:221, 39-62); there is no check of the index. -/
def elem (a : Impl γ) (i : Nat) : Call γ :=
  match a with
  | none => .ub
  | some (_, xs) =>
    match xs[i]? with
    | some x => .ok x
    | none => .ub

/-- A loop over an iterator of Python (`py::make_iterator`, def_darray.cpp:30, darray.hpp:112-185): `*it` and `++it`
until `it == end`. -/
def iterate (a : Impl γ) (stop : Nat) : Nat → Nat → Call (List γ)
  | 0, _ => .oof
  | fuel + 1, i =>
    if i = stop then .ok []
    else (elem a i).bind fun x => (iterate a stop fuel (i + 1)).bind fun xs => .ok (x :: xs)

/-- `list(d)`: from `begin()` to `end()` (darray.hpp:271-279). -/
def listOf (fuel : Nat) (a : Impl γ) : Call (List γ) := (size a).bind fun n => iterate a n fuel 0

end Object

section Memory
variable {β : Type}

/-- The memory of a `std::vector<T_>`: how many elements have room, and the ones it holds. -/
structure Blk (β : Type) where
  cap : Nat
  vals : List β

/-- All blocks; `none`: freed, or not allocated yet. -/
structure Mem (β : Type) where
  blocks : Nat → Option (Blk β)
  next : Nat

/-- A new block for these elements; `extra` is the room that is left by the growth of the vector. -/
def Mem.alloc (m : Mem β) (extra : Nat) (l : List β) : Mem β × Nat :=
  (⟨Function.update m.blocks m.next (some ⟨l.length + extra, l⟩), m.next + 1⟩, m.next)

/-- `~vector`. -/
def Mem.free (m : Mem β) (b : Nat) : Mem β := ⟨Function.update m.blocks b none, m.next⟩

/-- `clear` and then a `push_back` for each result (search_visitor.hpp:136, 266; for boxes
kd_tree.hpp:298): in the same block if they fit. -/
def Mem.refill (m : Mem β) (extra : Nat) (b : Nat) (l : List β) : Call (Mem β × Nat) :=
  match m.blocks b with
  | none => .ub
  | some blk =>
    if l.length ≤ blk.cap then .ok (⟨Function.update m.blocks b (some ⟨blk.cap, l⟩), m.next⟩, b)
    else .ok ((m.free b).alloc extra l)

/-- New vectors at the end of a vector of vectors, with their results. -/
def newCells (extra : Nat → Nat) : Mem β → List (List β) → Mem β × List Nat
  | m, [] => (m, [])
  | m, r :: rs =>
    let a := m.alloc (extra r.length) r
    let y := newCells extra a.1 rs
    (y.1, a.2 :: y.2)

/-- `resize` and one search for each element (_pyco_tree/kd_tree.hpp:189-199, 223-233, 258-268): surplus vectors are
destroyed, missing ones created. The blocks of the elements stay where they are when the vector of vectors grows. -/
def refillCells (extra : Nat → Nat) : Mem β → List Nat → List (List β) → Call (Mem β × List Nat)
  | m, [], res => .ok (newCells extra m res)
  | m, b :: bs, [] => refillCells extra (m.free b) bs []
  | m, b :: bs, r :: rs =>
    (m.refill (extra r.length) b r).bind fun x => (refillCells extra x.1 bs rs).bind fun y => .ok (y.1, x.2 :: y.2)

/-- A search that writes its results to a `darray` (_pyco_tree/kd_tree.hpp:179-200, 211-233, 245-268; the checks in
346-358): `t` is the type of the results of the tree. -/
def searchInto (extra : Nat → Nat) (m : Mem β) (a : Impl Nat) (t : Elt) (res : List (List β)) :
    Call (Mem β × Impl Nat) :=
  (dtype a).bind fun t' =>
    if t' = t then (data t a).bind fun bs => (refillCells extra m bs res).bind fun x => .ok (x.1, ofVector t x.2)
    else .throws

/-- Copies of vectors (`array.push_back(array_[begin])`, darray.hpp:69-72). -/
def copyCells : Mem β → List Nat → Call (Mem β × List Nat)
  | m, [] => .ok (m, [])
  | m, b :: bs =>
    match m.blocks b with
    | none => .ub
    | some blk =>
      let a := m.alloc 0 blk.vals
      (copyCells a.1 bs).bind fun y => .ok (y.1, a.2 :: y.2)

/-- A NumPy array that shows `len` elements of a block. `darray` and `cell` only record where it came from. -/
structure View where
  block : Nat
  len : Nat
  darray : Nat
  cell : Nat

/-- Objects of a Python program: the blocks, the `DArray`s, the NumPy arrays made from them. -/
structure World (β : Type) where
  mem : Mem β
  arrays : Nat → Option (Impl Nat)
  nextArray : Nat
  views : Nat → Option View
  nextView : Nat

/-- At the start. -/
def World.init : World β := ⟨⟨fun _ => none, 0⟩, fun _ => none, 0, fun _ => none, 0⟩

/-- A new `DArray`. -/
def World.addArray (w : World β) (m : Mem β) (a : Impl Nat) : World β :=
  { w with mem := m, arrays := Function.update w.arrays w.nextArray (some a), nextArray := w.nextArray + 1 }

/-- A new NumPy array that shows a block (darray.hpp:58-61). -/
def World.addView (w : World β) (d : Nat) (b c : Nat) : Call (World β) :=
  match w.mem.blocks b with
  | none => .ub
  | some blk => .ok { w with
      views := Function.update w.views w.nextView (some ⟨b, blk.vals.length, d, c⟩), nextView := w.nextView + 1 }

/-- NumPy arrays for all elements, in order; `c` is the number of the first one. -/
def World.addViews (d : Nat) : World β → List Nat → Nat → Call (World β)
  | w, [], _ => .ok w
  | w, b :: bs, c => (w.addView d b c).bind fun w => addViews d w bs (c + 1)

/-- Statements. Arrays and views are named by numbers. -/
inductive Op (β : Type) where
  /-- `DArray(dtype)`; `none`: another dtype. -/
  | new (t : Option Elt)
  /-- A radius or box search of a tree whose results are of type `t`. -/
  | search (t : Elt) (res : List (List β))
  /-- The same, with the output `d`. -/
  | searchInto (d : Nat) (t : Elt) (res : List (List β))
  /-- `d[start:stop:step]`. -/
  | slice (d : Nat) (start stop step : Option Int)
  /-- `d[i]`. -/
  | item (d : Nat) (i : Int)
  /-- `list(d)`. -/
  | list (d : Nat)
  /-- `v[j] = x`. -/
  | write (v j : Nat) (x : β)
  /-- The last reference to `d` goes away. -/
  | del (d : Nat)

/-- A statement; using a name without object raises. -/
def step (extra : Nat → Nat) (w : World β) : Op β → Call (World β)
  -- def_darray.cpp:20-27
  | .new t => (ofDtype t).bind fun a => .ok (w.addArray w.mem a)
  -- kd_tree.hpp:202-210, 235-243, 270-274: the result is moved to the new Python object
  | .search t res =>
    (searchInto extra w.mem (ofVector t []) t res).bind fun x => .ok (w.addArray x.1 (move x.2).1)
  | .searchInto d t res =>
    match w.arrays d with
    | none => .throws
    | some a => (searchInto extra w.mem a t res).bind fun x =>
        .ok { w with mem := x.1, arrays := Function.update w.arrays d (some x.2) }
  -- def_darray.cpp:51-59, darray.hpp:217-219, 64-75
  | .slice d start stop step =>
    match w.arrays d with
    | none => .throws
    | some none => .ub
    | some (some (t, bs)) => (getslice bs start stop step).bind fun cs => (copyCells w.mem cs).bind fun x =>
        .ok (w.addArray x.1 (ofVector t x.2))
  -- def_darray.cpp:33-48
  | .item d i =>
    match w.arrays d with
    | none => .throws
    | some none => .ub
    | some (some (_, bs)) => (getitem bs i).bind fun b => w.addView d b (toU64 (getitemIndex bs.length i)).toNat
  -- def_darray.cpp:28-32
  | .list d =>
    match w.arrays d with
    | none => .throws
    | some a => (size a).bind fun n => (listOf (n + 1) a).bind fun bs => World.addViews d w bs 0
  -- NumPy checks the index against the length that it was given
  | .write v j x =>
    match w.views v with
    | none => .throws
    | some view =>
      if j < view.len then
        match w.mem.blocks view.block with
        | none => .ub
        | some blk => .ok { w with
            mem := ⟨Function.update w.mem.blocks view.block (some ⟨blk.cap, blk.vals.set j x⟩), w.mem.next⟩ }
      else .throws
  -- darray.hpp:285, 88: the destructors
  | .del d =>
    match w.arrays d with
    | none => .throws
    | some a => .ok { w with
        mem := ((a.map Prod.snd).getD []).foldl Mem.free w.mem, arrays := Function.update w.arrays d none }

/-- A program; it goes on after an exception, with the state that it had. -/
def exec (extra : Nat → Nat) : World β → List (Op β) → Call (World β)
  | w, [] => .ok w
  | w, op :: ops =>
    match step extra w op with
    | .ok w' => exec extra w' ops
    | .throws => exec extra w ops
    | .ub => .ub
    | .oof => .oof
    | .mismatch => .mismatch

end Memory

end Pico.Darr
