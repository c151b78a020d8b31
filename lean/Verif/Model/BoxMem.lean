import Verif.Model.Box
import Verif.Model.View

/-!
# Boxes in memory (internal/box.hpp)

`Model/Box.lean` has the operations of boxes on values.  Here they read and write a memory of scalars, one access at a
time, so that a point may lie inside the box that it is fitted to.  Positions count scalars.
-/

namespace Pico

/-- The two pointers and the size that the operations of `box_base` use (box.hpp:113-140): a `box_map` or a
`metric_box_map` stores them (box.hpp:237-289, 374), a `box` computes them (box.hpp:161-193). -/
structure BoxView where
  min : Nat
  max : Nat
  size : Nat

/-- `box_map(min, max, size)` (box.hpp:271-272) with `box_map_storage` (237-256): a dimension known at compile time
replaces the size. -/
def BoxView.ofSize (Dim : Option Nat) (min max size : Nat) : BoxView := ⟨min, max, Dim.getD size⟩

/-- `box_map(min, max)` (box.hpp:268-269): the third argument is `dim`. -/
def BoxView.ofPointers (Dim : Option Nat) (min max : Nat) : BoxView := .ofSize Dim min max (Dim.getD dynamicExtent)

section
variable {τ σ : Type}

/-- Reading a scalar. -/
def memGet (m : List τ) (p : Nat) : Outcome τ :=
  match m[p]? with
  | some x => .ok x
  | none => .ub

/-- Writing a scalar. -/
def memSet (m : List τ) (p : Nat) (x : τ) : Outcome (List τ) := if p < m.length then .ok (m.set p x) else .ub

/-- `for (size_type i = 0; i < size(); ++i)` around a statement; `n` iterations are left, the next is `i`. -/
def forUp (f : Nat → σ → Outcome σ) : Nat → Nat → σ → Outcome σ
  | 0, _, s => .ok s
  | n + 1, i, s => (f i s).bind fun s => forUp f n (i + 1) s

/-- The same loop around `if (...) { return false; }`, with `return true` behind it. -/
def allUp (f : Nat → Outcome Bool) : Nat → Nat → Outcome Bool
  | 0, _ => .ok true
  | n + 1, i => (f i).bind fun c => if c then allUp f n (i + 1) else .ok false

end

namespace BoxView
variable {α : Type} [LT α] [LE α] [DecidableLT α] [DecidableLE α]

/-- The test of one coordinate in `contains(x)` (box.hpp:35): `max(i)` is read only if the first test fails. -/
def containsAt (b : BoxView) (m : List α) (x i : Nat) : Outcome Bool :=
  (memGet m (b.min + i)).bind fun lo => (memGet m (x + i)).bind fun v =>
    if lo > v then .ok false
    else (memGet m (b.max + i)).bind fun hi => .ok !(decide (hi < v))

/-- `contains(x)` for a point (box.hpp:31-40). -/
def containsPt (b : BoxView) (m : List α) (x : Nat) : Outcome Bool := allUp (b.containsAt m x) b.size 0

/-- `contains(x)` for a box (box.hpp:45-47). -/
def containsBox (b : BoxView) (m : List α) (x : BoxView) : Outcome Bool :=
  (b.containsPt m x.min).bind fun c => if c then b.containsPt m x.max else .ok false

/-- `fill_inverse_max` (box.hpp:54-59). -/
def fillInverseMax (N : Num α) (b : BoxView) (m : List α) : Outcome (List α) :=
  forUp (fun i m => (memSet m (b.min + i) N.big).bind fun m => memSet m (b.max + i) N.low) b.size 0 m

/-- `max_side` (box.hpp:71-82); `none` is the still uninitialised index. -/
def maxSide [Sub α] (N : Num α) (b : BoxView) (m : List α) : Outcome (Option Nat × α) :=
  forUp (fun i st => (memGet m (b.max + i)).bind fun hi => (memGet m (b.min + i)).bind fun lo =>
    .ok (if hi - lo > st.2 then (some i, hi - lo) else st)) b.size 0 (none, N.low)

/-- Loop body of `fit(x)` for a point (box.hpp:88-93). -/
def fitPtAt (b : BoxView) (x i : Nat) (m : List α) : Outcome (List α) :=
  ((memGet m (x + i)).bind fun v => (memGet m (b.min + i)).bind fun lo =>
      if v < lo then memSet m (b.min + i) v else .ok m).bind fun m =>
    (memGet m (x + i)).bind fun v => (memGet m (b.max + i)).bind fun hi =>
      if v > hi then memSet m (b.max + i) v else .ok m

/-- `fit(x)` for a point (box.hpp:86-95). -/
def fitPt (b : BoxView) (x : Nat) (m : List α) : Outcome (List α) := forUp (b.fitPtAt x) b.size 0 m

/-- Loop body of `fit(x)` for a box (box.hpp:102-108). -/
def fitBoxAt (b x : BoxView) (i : Nat) (m : List α) : Outcome (List α) :=
  ((memGet m (x.min + i)).bind fun v => (memGet m (b.min + i)).bind fun lo =>
      if v < lo then memSet m (b.min + i) v else .ok m).bind fun m =>
    (memGet m (x.max + i)).bind fun v => (memGet m (b.max + i)).bind fun hi =>
      if v > hi then memSet m (b.max + i) v else .ok m

/-- `fit(x)` for a box (box.hpp:100-110). -/
def fitBox (b x : BoxView) (m : List α) : Outcome (List α) := forUp (b.fitBoxAt x) b.size 0 m

end BoxView

/-- The memory of a `box` (box.hpp:161-193): `min()` is its beginning.  For a dimension known at compile time it is
the two arrays, one behind the other. -/
structure BoxMem (α : Type) where
  coords : List α
  size : Nat

namespace BoxMem
variable {α : Type}

/-- `min()`, `max()` and `size()` (box.hpp:164-174, 183-192, 209-229). -/
def view (o : BoxMem α) : BoxView := ⟨0, o.size, o.size⟩

/-- `box(size)` (box.hpp:207) with `box_storage` (164, 182).  The arrays are not initialised (`junk`); the vector has
`size * 2` zeros, counted in `size_t`, and throws if there are more than `vmax`. -/
def ofSize [Zero α] (Dim : Option Nat) (vmax : Nat) (junk : List α) (size : Nat) : Call (BoxMem α) :=
  match Dim with
  | some D => .ok ⟨junk, D⟩
  | none => if size * 2 % 2 ^ 64 ≤ vmax then .ok ⟨List.replicate (size * 2 % 2 ^ 64) 0, size⟩ else .throws

/-- `box()` (box.hpp:205). -/
def default [Zero α] (Dim : Option Nat) (vmax : Nat) (junk : List α) : Call (BoxMem α) :=
  ofSize Dim vmax junk (Dim.getD dynamicExtent)

/-- `make_inverse_max(size)` (box.hpp:62-66). -/
def makeInverseMax [Zero α] (N : Num α) (Dim : Option Nat) (vmax : Nat) (junk : List α) (size : Nat) : Call (BoxMem α) :=
  (ofSize Dim vmax junk size).bind fun o =>
    match o.view.fillInverseMax N o.coords with
    | .ok m => .ok ⟨m, o.size⟩
    | .ub => .ub
    | .oof => .oof

/-- What the implicit move constructor leaves behind (box.hpp:197-233): a vector gives its memory away, `size` and
arrays are copied. -/
def movedFrom (Dim : Option Nat) (o : BoxMem α) : BoxMem α :=
  match Dim with
  | some _ => o
  | none => ⟨[], o.size⟩

end BoxMem

end Pico
