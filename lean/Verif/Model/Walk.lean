import Verif.Model.Reads
import Verif.Model.TreeObj

/-!
# The const member functions, from node to node through the memory

`Model/Search.lean` and `Model/Reads.lean` follow a tree that is a value.  Here the searches, `leaf_ranges` and `save`
follow the pointers of nodes in memory.  Undefined: to dereference a null pointer, a pointer to memory that is not
allocated or to a node that was never assigned (`mem p = none`), and to read the member of the union `data` that is not
there.  All other reads are checked as in `Model/Reads.lean`.  The first argument bounds the depth of the recursion.
-/

namespace Pico

variable {β : Type}

/-- `*node`. -/
def derefNode (mem : Ptr → Option (Node β)) (node : Option Ptr) : Outcome (Node β) :=
  match node with
  | none => .ub
  | some p =>
    match mem p with
    | none => .ub
    | some x => .ok x

/-- `node->data.leaf` (kd_tree_node.hpp:30-38, 71-77): `begin_idx` and `end_idx`. -/
def Node.asLeaf (x : Node β) : Outcome (Nat × Nat) :=
  match x.data with
  | .leaf b e => .ok (b, e)
  | .branch _ => .ub

/-- `node->data.branch` (kd_tree_node.hpp:40-77). -/
def Node.asBranch (x : Node β) : Outcome β :=
  match x.data with
  | .leaf _ _ => .ub
  | .branch data => .ok data

section Nearest
variable {α : Type} [LT α] [LE α] [DecidableLT α] [DecidableLE α] [Zero α] [Add α] [Sub α] {d : Nat} {σ : Type}

/-- `search_nearest` (kd_tree_search.hpp:52-105, 150-203); `q` is `query_[..]`, `dist i` is
`metric_(query_.begin(), query_.end(), space_[i])`. -/
def searchNearestP (mem : Ptr → Option (Node β)) (splitDim : β → Fin d) (pick : α → β → Bool × α) (V : Visitor α σ)
    (q : Reader α) (dist : Nat → Outcome α) (indices : List Nat) :
    Nat → Option Ptr → α → Pt α d × σ → Outcome (Pt α d × σ)
  | 0, _, _, _ => .oof
  | fuel + 1, node, nodeBoxDistance, st =>
    (derefNode mem node).bind fun x =>
      if x.isLeaf then
        x.asLeaf.bind fun be => (sliceC indices be.1 be.2).bind fun l =>
          (visitAllC V dist l st.2).bind fun s => .ok (st.1, s)
      else
        x.asBranch.bind fun data => (q (splitDim data)).bind fun v =>
          let dim := splitDim data
          let newOffset := (pick v data).2
          let node1st := if (pick v data).1 then x.left else x.right
          let node2nd := if (pick v data).1 then x.right else x.left
          (searchNearestP mem splitDim pick V q dist indices fuel node1st nodeBoxDistance st).bind fun st1 =>
            let oldOffset := st1.1 dim
            let nodeBoxDistance' := nodeBoxDistance - oldOffset + newOffset
            if V.max st1.2 ≥ nodeBoxDistance' then
              (searchNearestP mem splitDim pick V q dist indices fuel node2nd nodeBoxDistance'
                (Function.update st1.1 dim newOffset, st1.2)).bind fun st2 =>
                .ok (Function.update st2.1 dim oldOffset, st2.2)
            else .ok st1

end Nearest

section Boxes
variable {α : Type} {d : Nat}

/-- `report_left` (kd_tree_search.hpp:358-364). -/
def reportLeftP (mem : Ptr → Option (Node β)) : Nat → Option Ptr → Outcome Nat
  | 0, _ => .oof
  | fuel + 1, node =>
    (derefNode mem node).bind fun x =>
      if x.isLeaf then x.asLeaf.bind fun be => .ok be.1 else reportLeftP mem fuel x.left

/-- `report_right` (kd_tree_search.hpp:366-372). -/
def reportRightP (mem : Ptr → Option (Node β)) : Nat → Option Ptr → Outcome Nat
  | 0, _ => .oof
  | fuel + 1, node =>
    (derefNode mem node).bind fun x =>
      if x.isLeaf then x.asLeaf.bind fun be => .ok be.2 else reportRightP mem fuel x.right

/-- `report_node` (kd_tree_search.hpp:336-356).  It does not call itself; the bound is that of `report_left` and
`report_right`. -/
def reportNodeP (mem : Ptr → Option (Node β)) (indices : List Nat) (fuel : Nat) (node : Option Ptr) (idxs : List Nat) :
    Outcome (List Nat) :=
  (derefNode mem node).bind fun x =>
    (if x.isLeaf then x.asLeaf
      else (reportLeftP mem fuel x.left).bind fun b => (reportRightP mem fuel x.right).bind fun e => .ok (b, e)).bind
      fun be => (sliceCopy indices be.1 be.2).bind fun l => .ok (idxs ++ l)

/-- `search_box::operator()` (kd_tree_search.hpp:270-306). -/
def searchBoxP (mem : Ptr → Option (Node β)) (splitDim : β → Fin d) (leftMax rightMin : β → α)
    (containsPt : Nat → Outcome Bool) (containsBox : Box α d → Outcome Bool)
    (intersectsLeft intersectsRight : β → Outcome Bool) (indices : List Nat) :
    Nat → Option Ptr → Box α d × List Nat → Outcome (Box α d × List Nat)
  | 0, _, _ => .oof
  | fuel + 1, node, st =>
    (derefNode mem node).bind fun x =>
      if x.isLeaf then
        x.asLeaf.bind fun be => (sliceC indices be.1 be.2).bind fun l =>
          (filterC containsPt l st.2).bind fun o => .ok (st.1, o)
      else
        x.asBranch.bind fun data =>
          let dim := splitDim data
          let box1 := st.1.setMax dim (leftMax data)
          (containsBox box1).bind fun c =>
          (if c then (reportNodeP mem indices fuel x.left st.2).bind fun o => .ok (box1, o)
            else (intersectsLeft data).bind fun i =>
              if i then
                searchBoxP mem splitDim leftMax rightMin containsPt containsBox intersectsLeft intersectsRight indices
                  fuel x.left (box1, st.2)
              else .ok (box1, st.2)).bind fun st2 =>
          let box3 := st2.1.setMax dim (st.1.max dim)
          let box4 := box3.setMin dim (rightMin data)
          (containsBox box4).bind fun c =>
          (if c then (reportNodeP mem indices fuel x.right st2.2).bind fun o => .ok (box4, o)
            else (intersectsRight data).bind fun i =>
              if i then
                searchBoxP mem splitDim leftMax rightMin containsPt containsBox intersectsLeft intersectsRight indices
                  fuel x.right (box4, st2.2)
              else .ok (box4, st2.2)).bind fun st5 =>
          .ok (st5.1.setMin dim (box3.min dim), st5.2)

end Boxes

/-- `insert_leaf_range` (kd_tree_data.hpp:76-87).  An iterator of `indices` is a number, at most its length. -/
def insertLeafRangeP (mem : Ptr → Option (Node β)) (indices : List Nat) :
    Nat → Option Ptr → List (Nat × Nat) → Outcome (List (Nat × Nat))
  | 0, _, _ => .oof
  | fuel + 1, node, ranges =>
    (derefNode mem node).bind fun x =>
      (if x.isLeaf then x.asLeaf.bind fun be => .ok (decide (be.1 ≠ be.2)) else .ok false).bind fun c =>
        if c then
          x.asLeaf.bind fun be =>
            if be.1 ≤ indices.length ∧ be.2 ≤ indices.length then .ok (ranges ++ [be]) else .ub
        else
          (insertLeafRangeP mem indices fuel x.left ranges).bind (insertLeafRangeP mem indices fuel x.right)

/-- `write_node` (kd_tree_data.hpp:109-120). -/
def writeNodeP {α : Type} (mem : Ptr → Option (Node β)) (pad : Nat → Byte) (P : Platform α) (branch : Codec β) :
    Nat → Option Ptr → List Byte → Outcome (List Byte)
  | 0, _, _ => .oof
  | fuel + 1, node, out =>
    (derefNode mem node).bind fun x =>
      if x.isLeaf then
        x.asLeaf.bind fun be => .ok (writeValue pad P.leaf be (writeValue pad P.bool true out))
      else
        x.asBranch.bind fun data =>
          (writeNodeP mem pad P branch fuel x.left (writeValue pad branch data (writeValue pad P.bool false out))).bind
            (writeNodeP mem pad P branch fuel x.right)

/-! ## Objects -/

section Objects
variable {α : Type} {d : Nat} {S : Type}

/-- The nodes that can be read. -/
def World.mem (w : World α d β S) (p : Ptr) : Option (Node β) := if p.1 ∈ w.heap.live then w.node p else none

/-- The elements of a vector whose memory is `v`. -/
def World.vector {τ : Type} (w : World α d β S) (v : Option Nat) (l : τ) : Outcome τ :=
  if ∀ x ∈ v.toList, x ∈ w.heap.live then .ok l else .ub

/-- The coordinates of the box.  A box that was moved away has none: the model calls every use of it undefined (in the
code a use is defined as long as no coordinate is read). -/
def World.boxOf (w : World α d β S) (o : TreeObj α d S) : Outcome (Box α d) :=
  (w.vector o.boxMem o.box).bind fun b =>
    match b with
    | none => .ub
    | some b => .ok b

/-- An object that exists. -/
def World.obj (w : World α d β S) (a : Nat) : Outcome (TreeObj α d S) :=
  match w.trees a with
  | none => .ub
  | some o => .ok o

/-- `kd_tree::search_nearest` (kd_tree.hpp:106-120, 382-408) of the object `a`, with the scalars of the query in `q`;
`space sp i` is `space_[i]` for the point set `sp`. -/
def World.searchNearest [LT α] [LE α] [DecidableLT α] [DecidableLE α] [Zero α] [Add α] [Sub α] {σ : Type}
    (w : World α d β S) (fuel a : Nat) (tag : SpaceTag α d β) (R : ReadTag α d β) (I : IterMetric α)
    (space : S → Nat → Reader α) (q : List α) (V : Visitor α σ) (s : σ) : Outcome σ :=
  (w.obj a).bind fun o => (w.vector o.indicesMem o.indices).bind fun indices =>
    (searchNearestP w.mem tag.splitDim (R.pick I) V (rd q) (fun i => I.dist q (space o.space i)) indices fuel
      (some o.root) 0 (fun _ => 0, s)).bind fun st => .ok st.2

section Nearest
variable [LT α] [LE α] [DecidableLT α] [DecidableLE α] [Zero α] [Add α] [Sub α]

/-- `search_nn` (kd_tree.hpp:125-129). -/
def World.searchNn (N : Num α) (w : World α d β S) (fuel a : Nat) (tag : SpaceTag α d β) (R : ReadTag α d β)
    (I : IterMetric α) (space : S → Nat → Reader α) (q : List α) (nn : Neighbor α) : Outcome (Neighbor α) :=
  w.searchNearest fuel a tag R I space q nnVisitor (nnInit N nn)

/-- `search_knn(x, k, knn)` (kd_tree.hpp:168-181, 188-195); `size sp` is the number of points of the point set `sp`. -/
def World.searchKnn (N : Num α) (w : World α d β S) (fuel a : Nat) (tag : SpaceTag α d β) (R : ReadTag α d β)
    (I : IterMetric α) (space : S → Nat → Reader α) (size : S → Nat) (q : List α) (k : Nat) (knn : List (Neighbor α)) :
    Outcome (List (Neighbor α)) :=
  (w.obj a).bind fun o => (knnInit N (KdTree.resize (min k (size o.space)) knn)).bind fun s =>
    (w.searchNearest fuel a tag R I space q (knnVisitor N) s).bind fun s => .ok s.buf

/-- `search_radius(x, radius, n, sort)` (kd_tree.hpp:256-268); `sorter` is `std::sort`. -/
def World.searchRadius (sorter : StdSort (Neighbor α)) (w : World α d β S) (fuel a : Nat) (tag : SpaceTag α d β)
    (R : ReadTag α d β) (I : IterMetric α) (space : S → Nat → Reader α) (q : List α) (radius : α)
    (n : List (Neighbor α)) (sort : Bool) : Outcome (List (Neighbor α)) :=
  (w.searchNearest fuel a tag R I space q (radiusVisitor radius) (radiusInit n)).bind fun out =>
    .ok (if sort then sorter.sort Neighbor.lt out else out)

end Nearest

/-- `kd_tree::search_box` (kd_tree.hpp:295-318) with the scalars of the corners in `mn`, `mx`. -/
def World.searchBox (w : World α d β S) (fuel a : Nat) (tag : SpaceTag α d β) (R : ReadTag α d β) (I : IterMetric α)
    (space : S → Nat → Reader α) (mn mx : List α) (idxs : List Nat) : Outcome (List Nat) :=
  (w.obj a).bind fun o => (w.vector o.indicesMem o.indices).bind fun indices => (w.boxOf o).bind fun box =>
    (searchBoxP w.mem tag.splitDim tag.leftMax tag.rightMin (fun i => R.containsPt I (rd mn) (rd mx) (space o.space i))
      (R.containsBox I (rd mn) (rd mx)) (R.intersectsLeft (rd mn) (rd mx)) (R.intersectsRight (rd mn) (rd mx)) indices
      fuel (some o.root) (box, KdTree.clearIdxs idxs)).bind fun st => .ok st.2

/-- `kd_tree::leaf_ranges` (kd_tree.hpp:325-327, kd_tree_data.hpp:60-64). -/
def World.leafRanges (w : World α d β S) (fuel a : Nat) : Outcome (List (Nat × Nat)) :=
  (w.obj a).bind fun o => (w.vector o.indicesMem o.indices).bind fun indices =>
    insertLeafRangeP w.mem indices fuel (some o.root) []

/-- `kd_tree::save` into a stream (kd_tree.hpp:367-370, kd_tree_data.hpp:54-58, 130-135). -/
def World.save (w : World α d β S) (fuel a : Nat) (pad : Nat → Byte) (P : Platform α) (branch : Codec β)
    (out : List Byte) : Outcome (List Byte) :=
  (w.obj a).bind fun o => (w.vector o.indicesMem o.indices).bind fun indices => (w.boxOf o).bind fun box =>
    writeNodeP w.mem pad P branch fuel (some o.root)
      (writeArray pad P.scalar (List.ofFn box.max) (writeArray pad P.scalar (List.ofFn box.min)
        (writeVector pad P.sizeT P.index indices (writeValue pad P.sizeT d out))))

end Objects

end Pico
