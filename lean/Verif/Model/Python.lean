import Verif.Model.Array
import Verif.Model.KdTree

/-!
# The Python class KdTree (_pyco_tree/kd_tree.hpp)

The searches of a batch are written as loops in the order of the indices; `Model/Parallel.lean` treats the
interleaving of the iterations by OpenMP.
-/

namespace Pico

section
variable {τ : Type}

/-- The range `[p, p + k)` of the memory; `none`: not inside of the memory. -/
def memSlice (buf : List τ) (p : Int) (k : Nat) : Option (List τ) :=
  if 0 ≤ p ∧ p.toNat + k ≤ buf.length then some ((buf.drop p.toNat).take k) else none

/-- The memory after the range that starts at `p` was overwritten with `s`. -/
def memSplice (buf : List τ) (p : Int) (s : List τ) : List τ :=
  buf.take p.toNat ++ s ++ buf.drop (p.toNat + s.length)

/-- A loop `for (i = 0; i < n; ++i)`. -/
def forRange (n : Nat) (step : Nat → List τ → Call (List τ)) (buf : List τ) : Call (List τ) :=
  (List.range n).foldl (fun c i => c.bind (step i)) (.ok buf)

/-- `ensure_size` (_pyco_tree/kd_tree.hpp:362-378). -/
def ensureSize (zero : τ) (query : Nat) (rowMajor : Bool) (k : Nat) (nns : NArray τ) :
    Call (NArray τ) :=
  if nns.shape.prod ≠ query * k then
    if k = 1 then nns.resize zero [query]
    else nns.resize zero (if rowMajor then [query, k] else [k, query])
  else .ok nns

/-- A default constructed `py::array_t<neighbor_type, 0>`. -/
def NArray.default (dtype : DType) : NArray τ where
  dtype := dtype
  shape := [0]
  strides := [1]
  base := 0
  buf := []
  writeable := true
  owns := true

variable {α : Type} {d : Nat}

/-- Body of the loops of `search_knn` (_pyco_tree/kd_tree.hpp:130-133, 160-166): query `i` writes to the
`k` elements from `output + i * k`.  `search` is the C++ search on a range. -/
def knnStep (search : Pt α d → List τ → Outcome (List τ)) (q : SpaceMap α) (k : Nat) (output : Int)
    (i : Nat) (buf : List τ) : Call (List τ) :=
  match q.point d i, memSlice buf (output + ((i * k : Nat) : Int)) k with
  | some x, some s => (Call.ofOutcome (search x s)).bind fun r =>
      .ok (memSplice buf (output + ((i * k : Nat) : Int)) r)
  | _, _ => .ub

/-- `search_knn(pts, k, nns)` and `search_knn(pts, k, e, nns)` (_pyco_tree/kd_tree.hpp:117-135, 144-168);
`Dim` is the compile time dimension, `d` the dimension of the tree, `nns` the output array. -/
def pyKnnInto (Dim : Option Nat) (scalarT neighborT : DType) (zero : τ)
    (search : Pt α d → List τ → Outcome (List τ)) (pts : NArray α) (k : Nat) (nns : NArray τ) :
    Call (NArray τ) :=
  if pts.dtype ≠ scalarT then .throws
  else if nns.dtype ≠ neighborT then .throws
  else
    (makeMap Dim pts).bind fun q =>
      (ensureSize zero q.size q.rowMajor k nns).bind fun nns =>
        if !nns.writeable then .throws
        else if q.sdim ≠ d then .mismatch
        else (forRange q.size (knnStep search q k nns.base) nns.buf).bind fun buf =>
          .ok { nns with buf := buf }

/-- `search_knn(pts, k)` and `search_knn(pts, k, e)` (_pyco_tree/kd_tree.hpp:137-142, 170-177). -/
def pyKnn (Dim : Option Nat) (scalarT neighborT : DType) (zero : τ)
    (search : Pt α d → List τ → Outcome (List τ)) (pts : NArray α) (k : Nat) : Call (NArray τ) :=
  pyKnnInto Dim scalarT neighborT zero search pts k (.default neighborT)

/-- `std::vector::resize` of a vector of vectors. -/
def resizeCells (n : Nat) (cells : List (List τ)) : List (List τ) :=
  cells.take n ++ List.replicate (n - cells.length) []

/-- Body of the loops of `search_radius` (_pyco_tree/kd_tree.hpp:196-198, 229-231). -/
def radiusStep (search : Pt α d → List τ → List τ) (q : SpaceMap α) (i : Nat)
    (cells : List (List τ)) : Call (List (List τ)) :=
  match q.point d i, cells[i]? with
  | some x, some c => .ok (cells.set i (search x c))
  | _, _ => .ub

/-- `search_radius` (_pyco_tree/kd_tree.hpp:179-200, 211-233); the output is a `DArray` with element type
`nnsT` and contents `cells`. -/
def pyRadiusInto (Dim : Option Nat) (scalarT neighborT : DType)
    (search : Pt α d → List τ → List τ) (pts : NArray α) (nnsT : DType) (cells : List (List τ)) :
    Call (List (List τ)) :=
  if pts.dtype ≠ scalarT then .throws
  else if nnsT ≠ neighborT then .throws
  else
    (makeMap Dim pts).bind fun q =>
      if q.sdim ≠ d then .mismatch
      else forRange q.size (radiusStep search q) (resizeCells q.size cells)

/-- `search_radius` with a new output (_pyco_tree/kd_tree.hpp:202-209, 235-243). -/
def pyRadius (Dim : Option Nat) (scalarT neighborT : DType) (search : Pt α d → List τ → List τ)
    (pts : NArray α) : Call (List (List τ)) :=
  pyRadiusInto Dim scalarT neighborT search pts neighborT []

/-- Body of the loop of `search_box` (_pyco_tree/kd_tree.hpp:263-266). -/
def boxStep (search : Pt α d → Pt α d → List τ → List τ) (q : SpaceMap α) (i : Nat)
    (cells : List (List τ)) : Call (List (List τ)) :=
  match q.point d (i * 2 + 0), q.point d (i * 2 + 1), cells[i]? with
  | some mn, some mx, some c => .ok (cells.set i (search mn mx c))
  | _, _, _ => .ub

/-- `search_box` (_pyco_tree/kd_tree.hpp:245-268). -/
def pyBoxInto (Dim : Option Nat) (scalarT indexT : DType)
    (search : Pt α d → Pt α d → List τ → List τ) (boxes : NArray α) (indicesT : DType)
    (cells : List (List τ)) : Call (List (List τ)) :=
  if boxes.dtype ≠ scalarT then .throws
  else if indicesT ≠ indexT then .throws
  else
    (makeMap Dim boxes).bind fun q =>
      if q.size % 2 ≠ 0 then .throws
      else if q.sdim ≠ d then .mismatch
      else forRange (q.size / 2) (boxStep search q) (resizeCells (q.size / 2) cells)

/-- `search_box` with a new output (_pyco_tree/kd_tree.hpp:270-274). -/
def pyBox (Dim : Option Nat) (scalarT indexT : DType) (search : Pt α d → Pt α d → List τ → List τ)
    (boxes : NArray α) : Call (List (List τ)) :=
  pyBoxInto Dim scalarT indexT search boxes indexT []

end

end Pico
