import Mathlib.Logic.Function.Basic
import Mathlib.Data.List.Basic

/-!
# Lifetimes of Python objects (_pyco_tree/def_kd_tree.cpp, def_darray.cpp, darray.hpp)

CPython frees an object when nothing refers to it any more.  The objects here never refer to each other in
cycles, so that is when it is no longer reachable from the variables of the program.  `keep_alive<n, p>` of
pybind11 makes the nurse `n` hold a reference to the patient `p`.  Not modelled: the values of the elements,
programs that resize a NumPy array in place, and references held by other Python objects (they behave like
variables).
-/

namespace Pico.Life

/-- One `std::vector<T>` of a `DArray`: its memory block, capacity and size. -/
structure Cell where
  block : Nat
  cap : Nat
  size : Nat
  deriving DecidableEq

/-- The objects, with the raw pointers they contain. -/
inductive Obj where
  /-- A NumPy array with its own memory. -/
  | array
  /-- A `KdTree`: its space points to the memory of the array `pts` (py_array_map.hpp:57-61). -/
  | tree (pts : Nat)
  /-- A `DArray` (darray.hpp:33-87). -/
  | darray (cells : List Cell)
  /-- A NumPy array that shows `size` elements of a block of a `DArray` without owning it
  (darray.hpp:39-62). -/
  | view (owner block size : Nat)
  /-- An iterator of a `DArray` with its end, both as indices (darray.hpp:110-186, 272-280). -/
  | iter (owner index stop : Nat)
  deriving DecidableEq

/-- The program state: objects, the references they hold, variables. -/
structure World where
  objs : Nat → Option Obj
  refs : Nat → List Nat
  vars : List Nat
  next : Nat
  nextBlock : Nat

/-- No objects. -/
def World.empty : World := ⟨fun _ => none, fun _ => [], [], 0, 0⟩

/-- The object has not been freed. -/
inductive Alive (w : World) : Nat → Prop
  | var {o : Nat} (h : o ∈ w.vars) : Alive w o
  | ref {o p : Nat} (h : Alive w o) (hr : p ∈ w.refs o) : Alive w p

/-- A new object, bound to a new variable. -/
def World.create (w : World) (o : Obj) (refs : List Nat) : World where
  objs := Function.update w.objs w.next (some o)
  refs := Function.update w.refs w.next refs
  vars := w.next :: w.vars
  next := w.next + 1
  nextBlock := w.nextBlock

/-- `clear` and then `push_back` of `size` elements: a new block if they do not fit. -/
def refill (block : Nat) (c : Cell) (size : Nat) : Cell :=
  if size ≤ c.cap then { c with size := size } else ⟨block, size, size⟩

/-- The cells after a search wrote results of these sizes to a `DArray` (_pyco_tree/kd_tree.hpp:190, 223,
258: `resize`, then one query per cell). -/
def refillAll : Nat → List Cell → List Nat → List Cell
  | _, _, [] => []
  | b, [], s :: ss => refill b ⟨b, 0, 0⟩ s :: refillAll (b + 1) [] ss
  | b, c :: cs, s :: ss => refill b c s :: refillAll (b + 1) cs ss

/-- Statements of a program; arguments are objects held in variables. -/
inductive Op where
  /-- A new NumPy array. -/
  | newArray
  /-- `KdTree(a, metric, max_leaf_size)`. -/
  | makeTree (a : Nat)
  /-- `load_kd_tree(a, filename)`. -/
  | loadTree (a : Nat)
  /-- `t.search_radius(...)` or `t.search_box(...)` with a new `DArray`; the sizes of the results. -/
  | search (t : Nat) (sizes : List Nat)
  /-- The same with the existing `DArray` `d` as output. -/
  | searchInto (t d : Nat) (sizes : List Nat)
  /-- `d[i]`, for a valid index. -/
  | getItem (d i : Nat)
  /-- `d[slice]`: a copy of some cells. -/
  | getSlice (d : Nat) (positions : List Nat)
  /-- `iter(d)`. -/
  | makeIter (d : Nat)
  /-- `next(it)`. -/
  | nextItem (it : Nat)
  /-- `del` of a variable, or its end of scope. -/
  | del (o : Nat)

/-- Execution of a statement; `none`: it raises, or an argument is not in a variable or of the wrong type, or
`next` reads behind the cells (see `IterOk`). -/
def step (w : World) : Op → Option World
  | .newArray => some (w.create .array [])
  | .makeTree a =>
    -- def_kd_tree.cpp:21-30: keep_alive<1, 2>
    if a ∈ w.vars ∧ w.objs a = some .array then some (w.create (.tree a) [a]) else none
  | .loadTree a =>
    -- def_kd_tree.cpp:182-188: no keep_alive
    if a ∈ w.vars ∧ w.objs a = some .array then some (w.create (.tree a) []) else none
  | .search t sizes =>
    if t ∈ w.vars then
      match w.objs t with
      | some (.tree _) =>
        some { w.create (.darray (refillAll w.nextBlock [] sizes)) [] with
          nextBlock := w.nextBlock + sizes.length }
      | _ => none
    else none
  | .searchInto t d sizes =>
    if t ∈ w.vars ∧ d ∈ w.vars then
      match w.objs t, w.objs d with
      | some (.tree _), some (.darray cells) =>
        some { w with
          objs := Function.update w.objs d (some (.darray (refillAll w.nextBlock cells sizes)))
          nextBlock := w.nextBlock + sizes.length }
      | _, _ => none
    else none
  | .getItem d i =>
    -- def_darray.cpp:33-48: keep_alive<0, 1>
    if d ∈ w.vars then
      match w.objs d with
      | some (.darray cells) =>
        match cells[i]? with
        | some c => some (w.create (.view d c.block c.size) [d])
        | none => none
      | _ => none
    else none
  | .getSlice d positions =>
    -- def_darray.cpp:50-61, darray.hpp:64-75: the vectors are copied
    if d ∈ w.vars then
      match w.objs d with
      | some (.darray cells) =>
        some { w.create (.darray (refillAll w.nextBlock []
            (positions.map fun i => ((cells[i]?).map Cell.size).getD 0))) [] with
          nextBlock := w.nextBlock + positions.length }
      | _ => none
    else none
  | .makeIter d =>
    -- def_darray.cpp:28-32: keep_alive<0, 1>
    if d ∈ w.vars then
      match w.objs d with
      | some (.darray cells) => some (w.create (.iter d 0 cells.length) [d])
      | _ => none
    else none
  | .nextItem it =>
    -- py::make_iterator without further arguments (def_darray.cpp:30): the view holds no reference
    if it ∈ w.vars then
      match w.objs it with
      | some (.iter d i stop) =>
        if i = stop then none
        else
          match w.objs d with
          | some (.darray cells) =>
            match cells[i]? with
            | some c =>
              some (({ w with objs := Function.update w.objs it (some (.iter d (i + 1) stop)) }).create
                (.view d c.block c.size) [])
            | none => none
          | _ => none
      | _ => none
    else none
  | .del o => some { w with vars := w.vars.erase o }

/-- Execution of a program. -/
def exec : World → List Op → Option World
  | w, [] => some w
  | w, op :: ops => (step w op).bind fun w => exec w ops

/-- Using the tree `t` only accesses memory that has not been freed. -/
def TreeOk (w : World) (t : Nat) : Prop := ∀ a, w.objs t = some (.tree a) → Alive w a

/-- Using the view `v` only accesses memory that has not been freed: its `DArray` exists and still has the
block. -/
def ViewOk (w : World) (v : Nat) : Prop :=
  ∀ d b n, w.objs v = some (.view d b n) → 0 < n →
    Alive w d ∧ ∃ cells, w.objs d = some (.darray cells) ∧ ∃ c ∈ cells, c.block = b ∧ n ≤ c.cap

/-- `next(it)` does not read behind the cells of its `DArray`. -/
def IterOk (w : World) (it : Nat) : Prop :=
  ∀ d i stop, w.objs it = some (.iter d i stop) →
    Alive w d ∧ ∃ cells, w.objs d = some (.darray cells) ∧ i ≤ stop ∧ stop ≤ cells.length

/-- The result fits into the memory that the `DArray` already has: at least as many cells as before, and
none larger than the capacity of its cell. -/
def Fits (w : World) : Op → Prop
  | .searchInto _ d sizes => ∀ cells, w.objs d = some (.darray cells) →
      List.Forall₂ (fun c s => s ≤ c.cap) cells (sizes.take cells.length)
  | _ => True

/-- All results that are written to an existing `DArray` fit. -/
def AllFit : World → List Op → Prop
  | _, [] => True
  | w, op :: ops => Fits w op ∧ ∀ w', step w op = some w' → AllFit w' ops

end Pico.Life
