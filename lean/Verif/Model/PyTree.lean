import Verif.Model.Dispatch
import Verif.Model.Header
import Verif.Model.PyCount

/-!
# The Python class KdTree as a whole (_pyco_tree/kd_tree.hpp, def_kd_tree.cpp)

The parts of the other files put together: from NumPy arrays to a tree, from the arguments of a call to the search, from
a tree to a file and back. Scalars of both widths are values of one type `α`.
-/

namespace Pico

open Pico.Bind

/-- What the bindings find around them: limits and arithmetic of `float` and `double`, the standard library, the memory,
and the conversion of a Python `float` to the scalar type. -/
structure PyEnv (α F : Type) where
  num : DType → Num α
  std : Std
  sorter : StdSort (Neighbor α)
  cap : Nat
  narrow : DType → F → α

/-- A `KdTree` (`kd_tree`, `kd_tree_impl`, _pyco_tree/kd_tree.hpp:88-381, 449-545): the scalar type and the metric are those
of the instance behind `impl_`, `Dim` is its compile time dimension. -/
structure PyTree (α : Type) where
  dtype : DType
  metric : PyMetric
  Dim : Option Nat
  space : SpaceMap α
  tree : KdTree α space.sdim (Branch1 α space.sdim)

/-- NumPy arrays that can be passed: of scalars, of neighbors. -/
inductive PyArr (α : Type) where
  | scalars (a : NArray α)
  | records (a : NArray (Neighbor α))

/-- `DArray`s: of neighbors, of indices (_pyco_tree/darray.hpp). -/
inductive PyCells (α : Type) where
  | neighbors (dtype : DType) (cells : List (List (Neighbor α)))
  | indices (cells : List (List Nat))

/-- `dtype_neighbor` (_pyco_tree/kd_tree.hpp:334-336). -/
def neighborDType : DType → DType
  | .float32 => .neighborF
  | _ => .neighborD

section
variable {α F : Type} [LT α] [LE α] [DecidableLT α] [DecidableLE α] [Zero α] [One α] [Add α] [Sub α] [Neg α] [Mul α] [Div α]

/-- The metrics of `make_kd_tree_from_metric` (_pyco_tree/kd_tree.hpp:383-404). -/
def pyMetric (d : Nat) : PyMetric → Metric α d
  | .l1 => metricL1 α d
  | .l2Squared => metricL2Sq α d
  | .lpinf => metricLPInf α d

/-- The points behind a view; `none`: some coordinate is outside of the memory. -/
def SpaceMap.points (m : SpaceMap α) : Option (Nat → Pt α m.sdim) :=
  if ∀ i < m.size, (m.point m.sdim i).isSome = true then
    some fun i => if i < m.size then (m.point m.sdim i).getD fun _ => 0 else fun _ => 0
  else none

/-- `make_kd_tree_from_scalar` and `make_kd_tree_from_dim` (_pyco_tree/kd_tree.hpp:406-437): the view of the points. -/
def openSpace (a : NArray α) : Call (Option Nat × SpaceMap α) :=
  if a.dtype = .float32 ∨ a.dtype = .float64 then treeMap a else .throws

/-- `KdTree(pts, metric, max_leaf_size)` (_pyco_tree/kd_tree.hpp:109-112, 383-445, 454-456). -/
def PyTree.make (E : PyEnv α F) (a : NArray α) (m : PyMetric) (leaf fuel : Nat) : Call (PyTree α) :=
  (openSpace a).bind fun r =>
    match r.2.points with
    | none => .ub
    | some pts =>
      (Call.ofOutcome (KdTree.make (euclideanTag α r.2.sdim) (pyMetric r.2.sdim m) (E.num a.dtype) pts r.2.size
        ⟨E.std, .sliding, .maxLeafSize leaf, .fromSpace, 32⟩ fuel)).bind fun t => .ok ⟨a.dtype, m, r.1, r.2, t⟩

/-- `search_knn` after the overload was chosen (_pyco_tree/kd_tree.hpp:117-177). An array with another element type than
the one expected is refused. -/
def PyTree.searchKnn (E : PyEnv α F) (T : PyTree α) (c : KnnCall (PyArr α) F) : Call (NArray (Neighbor α)) :=
  match c.pts, c.nns.getD (.records (.default (neighborDType T.dtype))) with
  | .scalars pts, .records out =>
    pyKnnInto64 E.cap T.Dim T.dtype (neighborDType T.dtype) ⟨0, 0⟩
      (match c.e with
        | none => T.tree.searchKnnRange
        | some e => fun x => T.tree.searchKnnApproxRange x (E.narrow T.dtype e)) pts c.k out
  | _, _ => .throws

/-- `search_radius` (_pyco_tree/kd_tree.hpp:179-243). -/
def PyTree.searchRadius (E : PyEnv α F) (T : PyTree α) (c : RadiusCall (PyArr α) (PyCells α) F) :
    Call (List (List (Neighbor α))) :=
  match c.pts, c.nns.getD (.neighbors (neighborDType T.dtype) []) with
  | .scalars pts, .neighbors dt cells =>
    pyRadiusInto T.Dim T.dtype (neighborDType T.dtype)
      (match c.e with
        | none => fun x l => T.tree.searchRadius E.sorter x (E.narrow T.dtype c.radius) l c.sort
        | some e => fun x l => T.tree.searchRadiusApprox E.sorter x (E.narrow T.dtype c.radius)
            (E.narrow T.dtype e) l c.sort) pts dt cells
  | _, _ => .throws

/-- `search_box` (_pyco_tree/kd_tree.hpp:245-274). -/
def PyTree.searchBox (T : PyTree α) (c : BoxCall (PyArr α) (PyCells α)) : Call (List (List Nat)) :=
  match c.boxes, c.indices.getD (.indices []) with
  | .scalars boxes, .indices cells => pyBoxInto T.Dim T.dtype .int32 T.tree.searchBox boxes .int32 cells
  | _, _ => .throws

/-- Arguments in Python. -/
abbrev PyArg (α F : Type) := PyVal (PyArr α) (PyCells α) F

/-- A call of one of the overloaded functions; no overload is the exception `TypeError`. -/
def pyCall {ρ σ : Type} (os : List (Overload (PyArr α) (PyCells α) F ρ)) (f : ρ → Call σ) (pos : List (PyArg α F))
    (kw : List (Name × PyArg α F)) : Call σ :=
  match resolve os pos kw with
  | some c => f c
  | none => .throws

/-- `tree.search_knn(*pos, **kw)` (def_kd_tree.cpp:59-110). -/
def PyTree.callKnn (E : PyEnv α F) (T : PyTree α) (pos : List (PyArg α F)) (kw : List (Name × PyArg α F)) :
    Call (NArray (Neighbor α)) :=
  pyCall knnOverloads (T.searchKnn E) pos kw

/-- `tree.search_radius(*pos, **kw)` (def_kd_tree.cpp:111-164). -/
def PyTree.callRadius (E : PyEnv α F) (T : PyTree α) (pos : List (PyArg α F)) (kw : List (Name × PyArg α F)) :
    Call (List (List (Neighbor α))) :=
  pyCall radiusOverloads (T.searchRadius E) pos kw

/-- `tree.search_box(*pos, **kw)` (def_kd_tree.cpp:165-180). -/
def PyTree.callBox (T : PyTree α) (pos : List (PyArg α F)) (kw : List (Name × PyArg α F)) : Call (List (List Nat)) :=
  pyCall boxOverloads T.searchBox pos kw

/-- A file as `save_kd_tree` leaves it (_pyco_tree/kd_tree.hpp:608-614). -/
def PyTree.save (pad : Nat → Byte) (P : DType → Platform α) (T : PyTree α) : List Byte :=
  pySave pad (P T.dtype) T.metric T.tree.data []

/-- Reading a file from Python. Values that the file does not hold are indeterminate. -/
def Call.ofLoad {τ : Type} : Load τ → Call τ
  | .ok a _ => .ok a
  | .eof => .ub
  | .invalid => .ub
  | .throws => .throws
  | .oof => .oof

/-- The data of a tree with the dimension of the space (`kd_tree_data::load`, kd_tree_data.hpp:43-52): with a compile time
dimension the stored one is ignored; otherwise another one is accepted, too, and the tree does not fit to the space. -/
def loadFor (P : Platform α) (Dim : Option Nat) (d fuel : Nat) (s : List Byte) : Call (TreeData α d (Branch1 α d)) :=
  match Dim with
  | some _ => Call.ofLoad (loadStatic P (P.branch1 d) d fuel s)
  | none => (Call.ofLoad (loadDynamic P P.branch1 fuel s)).bind fun t =>
      if h : t.1 = d then .ok (h ▸ t.2) else .mismatch

/-- `load_kd_tree(pts, filename)` (_pyco_tree/kd_tree.hpp:602-606, 114-115, 458-459): the header of the file selects the
metric, the array selects everything else. -/
def PyTree.load (E : PyEnv α F) (P : DType → Platform α) (junk : Fin 3 → Nat → Byte) (a : NArray α) (fuel : Nat)
    (file : List Byte) : Call (PyTree α) :=
  match readHeader junk file with
  | .ok m rest =>
    (openSpace a).bind fun r =>
      match r.2.points with
      | none => .ub
      | some pts => (loadFor (P a.dtype) r.1 r.2.sdim fuel rest).bind fun t =>
          .ok ⟨a.dtype, m, r.1, r.2, ⟨euclideanTag α r.2.sdim, pyMetric r.2.sdim m, E.num a.dtype, pts, r.2.size, t⟩⟩
  | .eof => .ub
  | .invalid => .ub
  | .throws => .throws
  | .oof => .oof

/-- `sdim` (_pyco_tree/kd_tree.hpp:288). -/
def PyTree.sdim (T : PyTree α) : Nat := T.space.sdim

/-- `npts` (_pyco_tree/kd_tree.hpp:290). -/
def PyTree.npts (T : PyTree α) : Nat := T.space.size

/-- `metric(scalar)` (_pyco_tree/kd_tree.hpp:276-278), up to the conversion of the result to a Python `float`. -/
def PyTree.applyMetric (E : PyEnv α F) (T : PyTree α) (v : F) : α := T.tree.metric.one (E.narrow T.dtype v)

end

end Pico
