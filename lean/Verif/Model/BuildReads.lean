import Verif.Model.Reads

/-!
# Construction with every read of a coordinate checked

`Model/Builder.lean` has the points as a function. Here the builder sees what `space_wrapper::operator[]` gives it: a
pointer to scalars for each index. A read that is not inside of a live object is undefined behaviour.
-/

namespace Pico

/-! ## Where the scalars of a point are -/

/-- What `space_traits<>::point_at` returns: a reference to a point of the space (vector_traits.hpp:32-35), a view whose
scalars belong to the space (map_traits.hpp:36-39, opencv_traits.hpp:144-147, eigen3_traits.hpp:107-110, 139-142,
matrix_space_traits.hpp:16-19), or a point with scalars of its own, by value. The library has the first two; the third compiles as well, for a custom space. -/
inductive PointAt where
  | reference
  | view
  | value
  deriving DecidableEq

/-- The object that holds the scalars: element `i` of the space or a temporary. -/
inductive Home where
  | element (i : Nat)
  | temporary
  deriving DecidableEq

/-- `point_traits_type::data(space_traits_type::point_at(space_, index))` (space_wrapper.hpp:29-32). -/
def dataOf (k : PointAt) (i : Nat) : Home :=
  match k with
  | .reference => .element i
  | .view => .element i
  | .value => .temporary

/-- A read through the pointer after the return from `operator[]`, when the temporaries of its body have been
destroyed. -/
def wrapped {α : Type} (k : PointAt) (pts : List (List α)) (i : Nat) : Reader α := fun j =>
  match dataOf k i with
  | .element i => vectorSpace pts i j
  | .temporary => .ub

section
variable {α : Type} [LT α] [LE α] [DecidableLT α] [DecidableLE α] [Zero α] [Sub α] [Add α] {d : Nat} {β : Type}

/-- The scalars behind the pointers; zero where there is none. -/
def values (space : Nat → Reader α) : Nat → Pt α d := fun i j =>
  match space i j with
  | .ok v => v
  | _ => 0

/-- Reads coordinate `dim` of the points of a range. -/
def readAll (space : Nat → Reader α) (dim : Fin d) : List Nat → Outcome Unit
  | [] => .ok ()
  | i :: seg => (space i dim).bind fun _ => readAll space dim seg

/-- `nth_element` and the read of `split_val` (kd_tree_builder.hpp:166-174, 253-261, 264-272). Taken to read every point
of the range, even if it has only one. -/
def nthSplitC (S : Std) (space : Nat → Reader α) (dim : Fin d) (k : Nat) (seg : List Nat) : Outcome (Split α d) :=
  (readAll space dim seg).bind fun _ =>
    let seg' := S.nth (coordLt (values space) dim) k seg
    match seg'[k]? with
    | none => .ub
    | some i => (space i dim).bind fun v => .ok ⟨seg', k, dim, v⟩

/-- `splitter_median_max_side::operator()` (kd_tree_builder.hpp:153-175). -/
def splitMedianC (S : Std) (N : Num α) (space : Nat → Reader α) (seg : List Nat) (box : Box α d) : Outcome (Split α d) :=
  match (box.maxSide N).1 with
  | none => .ub
  | some dim => nthSplitC S space dim (seg.length / 2) seg

/-- `splitter_midpoint_max_side::operator()` (kd_tree_builder.hpp:193-213); `std::partition` applies the predicate to
every element. -/
def splitMidpointC (S : Std) (N : Num α) (space : Nat → Reader α) (seg : List Nat) (box : Box α d) :
    Outcome (Split α d) :=
  match box.maxSide N with
  | (none, _) => .ub
  | (some dim, delta) =>
    let v := N.mulHalf delta + box.min dim
    (readAll space dim seg).bind fun _ =>
      let (seg', k) := S.partition (coordBelow (values space) dim v) seg
      .ok ⟨seg', k, dim, v⟩

/-- `splitter_sliding_midpoint_max_side::operator()` (kd_tree_builder.hpp:229-274). -/
def splitSlidingC (S : Std) (N : Num α) (space : Nat → Reader α) (seg : List Nat) (box : Box α d) :
    Outcome (Split α d) :=
  match box.maxSide N with
  | (none, _) => .ub
  | (some dim, delta) =>
    let v := N.divTwo delta + box.min dim
    (readAll space dim seg).bind fun _ =>
      let (seg', k) := S.partition (coordBelow (values space) dim v) seg
      if k = seg'.length then
        match k with
        | 0 => .ub
        | k' + 1 => nthSplitC S space dim k' seg'
      else if k = 0 then nthSplitC S space dim 1 seg'
      else .ok ⟨seg', k, dim, v⟩

/-- `compute_bounding_box` of the builder (kd_tree_builder.hpp:399-407) and of `space_wrapper`
(space_wrapper.hpp:34-40). -/
def boundingC (N : Num α) (space : Nat → Reader α) (seg : List Nat) : Outcome (Box α d) :=
  seg.foldl (fun b i => b.bind fun b => fitC b (space i)) (.ok (Box.inverseMax N))

/-- The box of a leaf (kd_tree_builder.hpp:365-371). -/
def leafBoxC (C : BuildCfg α d β) (space : Nat → Reader α) (seg : List Nat) (box : Box α d) : Outcome (Box α d) :=
  match C.rule with
  | .midpoint => if seg.length > 0 then boundingC C.N space seg else .ok box
  | _ => boundingC C.N space seg

/-- The splitter selected by the rule (kd_tree_builder.hpp:282-303). -/
def splitterC (C : BuildCfg α d β) (space : Nat → Reader α) (seg : List Nat) (box : Box α d) : Outcome (Split α d) :=
  match C.rule with
  | .median => splitMedianC C.S C.N space seg box
  | .midpoint => splitMidpointC C.S C.N space seg box
  | .sliding => splitSlidingC C.S C.N space seg box

/-- `create_node` (kd_tree_builder.hpp:352-396); `C.pts` is not looked at. -/
def createNodeC (C : BuildCfg α d β) (space : Nat → Reader α) :
    Nat → Int → Nat → List Nat → Box α d → Outcome (Tree β × List Nat × Box α d)
  | 0, _, _, _, _ => .oof
  | fuel + 1, depth, offset, seg, box =>
    if isLeaf C depth seg.length then
      (leafBoxC C space seg box).bind fun b => .ok (.leaf offset (offset + seg.length), seg, b)
    else
      (splitterC C space seg box).bind fun sp =>
        (createNodeC C space fuel (depth + 1) offset (sp.seg.take sp.pos) (box.setMax sp.dim sp.val)).bind
          fun (l, segL, boxL) =>
            (createNodeC C space fuel (depth + 1) (offset + sp.pos) (sp.seg.drop sp.pos) (box.setMin sp.dim sp.val)).bind
              fun (r, segR, boxR) =>
                .ok (.branch (C.setBranch boxL boxR sp.dim) l r, segL ++ segR, boxL.fitBox boxR)

/-- `box_from_bounds` (kd_tree_builder.hpp:497-511); for the corners of `bounds_t` see `boundsC`. -/
def boxFromBoundsC (N : Num α) (space : Nat → Reader α) (n : Nat) : Bounds α d → Outcome (Box α d)
  | .fromSpace => boundingC N space (List.range n)
  | .given mn mx => .ok (((Box.inverseMax N).fitPt mn).fitPt mx)

/-- The constructor of `kd_tree` (kd_tree.hpp:76-88, kd_tree_builder.hpp:466-494) for a space of `n` points. -/
def KdTree.makeC (tag : SpaceTag α d β) (M : Metric α d) (N : Num α) (space : Nat → Reader α) (n : Nat)
    (o : BuildOpts α d) (fuel : Nat) : Outcome (KdTree α d β) :=
  (boxFromBoundsC N space n o.bounds).bind fun rootBox =>
    (createNodeC (KdTree.cfg tag N (values space) o) space fuel 0 0 (List.range n) rootBox).bind
      fun (root, indices, _) => .ok ⟨tag, M, N, values space, n, ⟨indices, rootBox, root⟩⟩

end

end Pico
