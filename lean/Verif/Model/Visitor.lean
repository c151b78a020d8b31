import Verif.Model.Basic
import Verif.Model.Std

/-!
# Search visitors (internal/search_visitor.hpp)

A visitor object is a state machine: `visit` is `operator()(idx, dst)`, `max` is `max()`.
The state of the visitors of the library is the output argument they refer to.
-/

namespace Pico

/-- The interface the searches require of a visitor (search_visitor.hpp; kd_tree.hpp:103-107). -/
structure Visitor (α σ : Type) where
  visit : σ → Nat → α → σ
  max : σ → α

section
variable {α : Type} [LT α] [LE α] [DecidableLT α] [DecidableLE α]

/-- The loop of `insert_sorted` (search_visitor.hpp:30-37), `e` is the position of `end` after
`std::advance(end, -1)`.  Reading outside of the buffer (`none`) does not occur for the arguments
used by the visitors. -/
def insertLoop (item : Neighbor α) : List (Neighbor α) → Nat → List (Neighbor α)
  | buf, 0 => buf.set 0 item
  | buf, e + 1 =>
    match buf[e]? with
    | some x => if Neighbor.lt item x then insertLoop item (buf.set (e + 1) x) e
                else buf.set (e + 1) item
    | none => buf

/-- `insert_sorted(begin, begin + active, item)` (search_visitor.hpp:24-38). -/
def insertSorted (buf : List (Neighbor α)) (active : Nat) (item : Neighbor α) : List (Neighbor α) :=
  insertLoop item buf (active - 1)

/-- `search_nn` (search_visitor.hpp:41-65); the state is the referenced neighbor. -/
def nnVisitor : Visitor α (Neighbor α) where
  visit s idx dst := if s.distance > dst then ⟨idx, dst⟩ else s
  max s := s.distance

/-- Constructor of `search_nn` and `search_approximate_nn` (search_visitor.hpp:49-51, 174-177). -/
def nnInit (N : Num α) (nn : Neighbor α) : Neighbor α := { nn with distance := N.big }

/-- State of `search_knn`: the range `[begin_, end_)` and `active_end_ - begin_`
(search_visitor.hpp:119-122). -/
structure KnnState (α : Type) where
  buf : List (Neighbor α)
  active : Nat

/-- `max()` of `search_knn`: `std::prev(end_)->distance` (search_visitor.hpp:117, 240).  The empty
range is excluded before (see `knnInit`). -/
def knnMax (N : Num α) (s : KnnState α) : α :=
  match s.buf.getLast? with
  | some x => x.distance
  | none => N.big

/-- `operator()` of `search_knn` (search_visitor.hpp:106-114). -/
def knnVisit (N : Num α) (s : KnnState α) (idx : Nat) (dst : α) : KnnState α :=
  if knnMax N s > dst then
    let active := if s.active < s.buf.length then s.active + 1 else s.active
    ⟨insertSorted s.buf active ⟨idx, dst⟩, active⟩
  else s

/-- `search_knn` (search_visitor.hpp:83-123). -/
def knnVisitor (N : Num α) : Visitor α (KnnState α) where
  visit := knnVisit N
  max := knnMax N

/-- Constructor of `search_knn` and `search_approximate_knn` (search_visitor.hpp:98-103, 210-222):
writes through `std::prev(end_)`, which is undefined behaviour for an empty range. -/
def knnInit (N : Num α) (buf : List (Neighbor α)) : Outcome (KnnState α) :=
  match buf.getLast? with
  | none => .ub
  | some x => .ok ⟨buf.set (buf.length - 1) { x with distance := N.big }, 0⟩

/-- Constructor of `search_radius` and `search_approximate_radius` (search_visitor.hpp:135-138,
262-268): `n_.clear()`. -/
def radiusInit (_n : List (Neighbor α)) : List (Neighbor α) := []

/-- `search_radius` (search_visitor.hpp:127-156); the state is the output vector. -/
def radiusVisitor (radius : α) : Visitor α (List (Neighbor α)) where
  visit s idx dst := if radius > dst then s ++ [⟨idx, dst⟩] else s
  max _ := radius

variable [One α] [Div α] [Mul α]

/-- `search_approximate_nn` (search_visitor.hpp:165-191), `e_inv_ = 1 / e`. -/
def approxNnVisitor (e : α) : Visitor α (Neighbor α) where
  visit s idx dst :=
    let sdst := dst * (1 / e)
    if s.distance > sdst then ⟨idx, sdst⟩ else s
  max s := s.distance

/-- `search_approximate_knn` (search_visitor.hpp:197-247). -/
def approxKnnVisitor (N : Num α) (e : α) : Visitor α (KnnState α) where
  visit s idx dst := knnVisit N s idx (dst * (1 / e))
  max := knnMax N

/-- `search_approximate_radius` (search_visitor.hpp:254-288), `radius_ = radius * e_inv_`. -/
def approxRadiusVisitor (e radius : α) : Visitor α (List (Neighbor α)) where
  visit s idx dst :=
    let sdst := dst * (1 / e)
    if radius * (1 / e) > sdst then s ++ [⟨idx, sdst⟩] else s
  max _ := radius * (1 / e)

end

end Pico
