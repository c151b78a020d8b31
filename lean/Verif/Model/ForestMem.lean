import Verif.Model.Matrix
import Verif.Model.Walk

/-!
# Objects of the class `kd_forest`: built, moved, destroyed, and searched from node to node through the memory

File names are relative to `examples/pico_understory/pico_understory/`.  `Model/Forest.lean` follows trees that are
values; here a forest is a vector of objects that own memory (`Model/TreeObj.lean`), a search follows the pointers of
their nodes, and all reads of a query, of the rotated points and of the indices are checked.

Not modelled: the memory of the vector `data_`, of the points and of the rotated point sets, and that a failing
allocation of a rotated point set ends the program (the constructors of `matrix_space` are `noexcept`).  The member
`space_` of a forest is not used after the construction.
-/

namespace Pico

/-! ## Rotations -/

section Rotation
variable {α : Type} [Zero α] [One α] [Add α] [Sub α] [Mul α] {d : Nat}

/-- A read or write outside of the memory is undefined. -/
def checked {τ : Type} : Option τ → Outcome τ
  | none => .ub
  | some x => .ok x

/-- `rkd_tree_hh_data::rotate_point` for a query (internal/rkd_tree_hh_data.hpp:66-72); `q` are its scalars. -/
def rotateQuery (r : Pt α d) (q : List α) : Outcome (List α) :=
  checked (rotateInto (fun _ j => q[j.1]?) r 0 (List.replicate d 0))

end Rotation

/-- The members `rotation` and `space` of `rkd_tree_hh_data` (internal/rkd_tree_hh_data.hpp:74-75); the latter is a
`matrix_space` with the coordinates `elems` (internal/matrix_space.hpp:7-25). -/
structure Rot (α : Type) (d : Nat) where
  rotation : Pt α d
  elems : List α

/-! ## The priority search -/

section Search
variable {α : Type} [LT α] [LE α] [DecidableLT α] [DecidableLE α] [Zero α] [Add α] [Sub α] {d : Nat} {σ : Type}

/-- The first child, `old_offset` and `new_offset` (internal/kd_tree_priority_search.hpp:93-112); `v` is the coordinate of
the query. -/
def pickPriorityC (I : IterMetric α) (v : α) (b : Branch2 α d) : Bool × α × α :=
  if b.leftMax + b.rightMin - v - v > 0 then
    (true, if v > b.leftMin then 0 else I.one (b.leftMin - v), I.one (b.rightMin - v))
  else
    (false, if v < b.rightMax then 0 else I.one (b.rightMax - v), I.one (b.leftMax - v))

/-- `priority_search_nearest_euclidean::search_nearest` (internal/kd_tree_priority_search.hpp:68-127); `q` is
`query_[..]`, `dist i` is `metric_(query_.begin(), query_.end(), space_[i])`. -/
def priorityDescendP (mem : Ptr → Option (Node (Branch2 α d))) (I : IterMetric α) (V : Visitor α σ) (q : Reader α)
    (dist : Nat → Outcome α) (indices : List Nat) :
    Nat → Option Ptr → α → σ × List (α × Option Ptr) → Outcome (σ × List (α × Option Ptr))
  | 0, _, _, _ => .oof
  | depth + 1, node, nodeBoxDistance, st =>
    (derefNode mem node).bind fun x =>
      if x.isLeaf then
        x.asLeaf.bind fun be => (sliceC indices be.1 be.2).bind fun l =>
          (visitAllC V dist l st.1).bind fun s => .ok (s, st.2)
      else
        x.asBranch.bind fun data => (q data.splitDim).bind fun v =>
          let p := pickPriorityC I v data
          let node1st := if p.1 then x.left else x.right
          let node2nd := if p.1 then x.right else x.left
          (priorityDescendP mem I V q dist indices depth node1st nodeBoxDistance st).bind fun st1 =>
            let nodeBoxDistance' := nodeBoxDistance - p.2.1 + p.2.2
            .ok (if V.max st1.1 > nodeBoxDistance' then (st1.1, (nodeBoxDistance', node2nd) :: st1.2) else st1)

/-- The loop of `priority_search_nearest_euclidean::operator()` (internal/kd_tree_priority_search.hpp:51-63). -/
def priorityLoopP (Q : StdQueue α (Option Ptr)) (mem : Ptr → Option (Node (Branch2 α d))) (I : IterMetric α)
    (V : Visitor α σ) (q : Reader α) (dist : Nat → Outcome α) (indices : List Nat) (maxLeaves depth : Nat) :
    Nat → Nat → σ × List (α × Option Ptr) → Outcome σ
  | 0, _, _ => .oof
  | fuel + 1, leavesVisited, st =>
    match Q.pop st.2 with
    | none => .ok st.1
    | some (top, rest) =>
      if leavesVisited ≥ maxLeaves ∨ V.max st.1 < top.1 then .ok st.1
      else (priorityDescendP mem I V q dist indices depth top.2 top.1 (st.1, rest)).bind
        (priorityLoopP Q mem I V q dist indices maxLeaves depth fuel (leavesVisited + 1))

/-- `priority_search_nearest_euclidean::operator()` (internal/kd_tree_priority_search.hpp:48-64). -/
def prioritySearchP (Q : StdQueue α (Option Ptr)) (mem : Ptr → Option (Node (Branch2 α d))) (I : IterMetric α)
    (V : Visitor α σ) (q : Reader α) (dist : Nat → Outcome α) (indices : List Nat) (maxLeaves depth fuel : Nat)
    (root : Option Ptr) (s : σ) : Outcome σ :=
  priorityLoopP Q mem I V q dist indices maxLeaves depth fuel 0 (s, [(0, root)])

end Search

/-! ## Forests -/

/-- The memory with the trees in it (elements of vectors and temporary objects), the forests, which are numbered (the
elements of their vectors `data_`), and the first number no tree has had. -/
structure ForestWorld (α : Type) (d : Nat) where
  w : World α d (Branch2 α d) (Rot α d)
  forests : Nat → Option (List Nat)
  next : Nat

/-- The operations. -/
inductive ForestOp (α : Type) (d : Nat) where
  /-- `kd_forest f(space, max_leaf_size, rotations.size())` for the points `pts 0`, …, `pts (n - 1)`; `rotations` are the
  vectors drawn, `N` and `indexBits` describe the scalar and the index type. -/
  | make (f : Nat) (N : Num α) (pts : Nat → Pt α d) (n indexBits maxLeafSize fuel : Nat) (rotations : List (Pt α d))
  /-- `kd_forest f(std::move(g))` -/
  | moveConstruct (f g : Nat)
  /-- `f = std::move(g)` -/
  | moveAssign (f g : Nat)
  | destroy (f : Nat)

namespace ForestWorld
variable {α : Type} {d : Nat}

/-- The start of the program. -/
def empty : ForestWorld α d := ⟨.empty, fun _ => none, 0⟩

variable [LT α] [LE α] [DecidableLT α] [DecidableLE α] [Zero α] [One α] [Add α] [Sub α] [Mul α]

section Programs
variable (M : Malloc) (fails : Nat → Nat → Bool) (cs : Nat) (dyn : Bool) (left : Rot α d → Rot α d) (P : Platform α)
  (branch : Codec (Branch2 α d))

/-- The elements of a vector are destroyed. -/
def destroyAll (w : World α d (Branch2 α d) (Rot α d)) (data : List Nat) :
    Outcome (World α d (Branch2 α d) (Rot α d)) :=
  Outcome.foldl (fun w a => (w.step M fails cs dyn left P branch (.destroy a)).bind fun r => .ok r.1) w data

/-- One round of the loop of `build_rkd_tree::operator()` (internal/rkd_tree_builder.hpp:34-40).  The local `t` has the
number `a`, the temporary `rkd_tree_hh_data` the number `a + 1`, the element of the vector the number `a + 2`; `r` and `s`
are moved together with `t`.  The result tells if the construction of `t` threw. -/
def addTree (S : Std) (N : Num α) (pts : Nat → Pt α d) (n indexBits maxLeafSize fuel : Nat) (r : Pt α d)
    (w : World α d (Branch2 α d) (Rot α d)) (a : Nat) : Outcome (World α d (Branch2 α d) (Rot α d) × Bool) :=
  let o : BuildOpts α d := Forest.opts S indexBits maxLeafSize
  (checked (rotateSpace r pts n)).bind fun s =>
    (w.step M fails cs dyn left P branch (.build a ⟨r, s.elems⟩ ⟨fun i => rotatePoint r (pts i), S, N, o.rule, o.stop,
        o.indexBits, setBranchTopological⟩ n o.bounds fuel)).bind fun (w, thrown) =>
      if thrown then .ok (w, true)
      else (w.run M fails cs dyn left P branch [.moveConstruct (a + 1) a, .moveConstruct (a + 2) (a + 1),
        .destroy (a + 1), .destroy a]).bind fun (w, _) => .ok (w, false)

/-- The loop of `build_rkd_tree::operator()` (internal/rkd_tree_builder.hpp:32-41).  Memory for the elements was reserved,
so that they are not moved again; the vector is returned without a move.  An exception destroys the elements. -/
def addTrees (S : Std) (N : Num α) (pts : Nat → Pt α d) (n indexBits maxLeafSize fuel : Nat) :
    List (Pt α d) → World α d (Branch2 α d) (Rot α d) → Nat → List Nat →
    Outcome (World α d (Branch2 α d) (Rot α d) × Nat × Option (List Nat))
  | [], w, next, data => .ok (w, next, some data)
  | r :: rs, w, next, data =>
    (addTree M fails cs dyn left P branch S N pts n indexBits maxLeafSize fuel r w next).bind fun (w, thrown) =>
      if thrown then (destroyAll M fails cs dyn left P branch w data).bind fun w => .ok (w, next + 3, none)
      else addTrees S N pts n indexBits maxLeafSize fuel rs w (next + 3) (data ++ [next + 2])

/-- One operation; the result tells if it threw.  Programs that use a forest that does not exist, or construct one that
does, are ill formed (`ub`). -/
def step (S : Std) (u : ForestWorld α d) : ForestOp α d → Outcome (ForestWorld α d × Bool)
  -- kd_forest.hpp:42-50
  | .make f N pts n indexBits maxLeafSize fuel rotations =>
    match u.forests f with
    | some _ => .ub
    | none => (addTrees M fails cs dyn left P branch S N pts n indexBits maxLeafSize fuel rotations u.w u.next []).bind
        fun (w, next, data) =>
          match data with
          | none => .ok (⟨w, u.forests, next⟩, true)
          | some data => .ok (⟨w, Function.update u.forests f (some data), next⟩, false)
  -- kd_forest.hpp:59: the vector takes the memory of the other one
  | .moveConstruct f g =>
    match u.forests f, u.forests g with
    | none, some data => .ok (⟨u.w, Function.update (Function.update u.forests g (some [])) f (some data), u.next⟩, false)
    | _, _ => .ub
  -- kd_forest.hpp:65: so does an assignment; the elements it had are destroyed (also if `f = g`, as in libstdc++)
  | .moveAssign f g =>
    match u.forests f, u.forests g with
    | some old, some data => (destroyAll M fails cs dyn left P branch u.w old).bind fun w =>
        .ok (⟨w, Function.update (Function.update u.forests f (some data)) g (some []), u.next⟩, false)
    | _, _ => .ub
  -- the implicit destructor
  | .destroy f =>
    match u.forests f with
    | none => .ub
    | some data => (destroyAll M fails cs dyn left P branch u.w data).bind fun w =>
        .ok (⟨w, Function.update u.forests f none, u.next⟩, false)

/-- A sequence of operations. -/
def run (S : Std) : ForestWorld α d → List (ForestOp α d) → Outcome (ForestWorld α d × List Bool)
  | u, [] => .ok (u, [])
  | u, op :: ops => (step M fails cs dyn left P branch S u op).bind fun (u, r) =>
      (run S u ops).bind fun (u, rs) => .ok (u, r :: rs)

end Programs

section Searches
variable {σ : Type}

/-- The body of the loop of `kd_forest::search_nearest` (kd_forest.hpp:98-113) for the tree `a`. -/
def searchTree (Q : StdQueue α (Option Ptr)) (depth fuel : Nat) (I : IterMetric α)
    (w : World α d (Branch2 α d) (Rot α d)) (q : List α) (maxLeaves : Nat) (V : Visitor α σ) (s : σ) (a : Nat) :
    Outcome σ :=
  (w.obj a).bind fun o => (rotateQuery o.space.rotation q).bind fun p =>
    (w.vector o.indicesMem o.indices).bind fun indices =>
      prioritySearchP Q w.mem I V (rd p) (fun i => I.dist p (mapSpace o.space.elems d i)) indices maxLeaves depth fuel
        (some o.root) s

/-- `kd_forest::search_nearest` (kd_forest.hpp:69-76, 90-114) with the scalars of the query in `q`. -/
def searchNearest (Q : StdQueue α (Option Ptr)) (depth fuel : Nat) (I : IterMetric α) (u : ForestWorld α d) (f : Nat)
    (q : List α) (maxLeaves : Nat) (V : Visitor α σ) (s : σ) : Outcome σ :=
  match u.forests f with
  | none => .ub
  | some data => Outcome.foldl (searchTree Q depth fuel I u.w q maxLeaves V) s data

/-- `kd_forest::search_nn` (kd_forest.hpp:81-86). -/
def searchNn (Q : StdQueue α (Option Ptr)) (depth fuel : Nat) (I : IterMetric α) (N : Num α) (u : ForestWorld α d)
    (f : Nat) (q : List α) (maxLeaves : Nat) (nn : Neighbor α) : Outcome (Neighbor α) :=
  u.searchNearest Q depth fuel I f q maxLeaves nnVisitor (nnInit N nn)

end Searches

end ForestWorld

end Pico
