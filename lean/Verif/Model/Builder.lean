import Verif.Model.Tree

/-!
# Tree construction (internal/kd_tree_builder.hpp)
-/

namespace Pico

/-- `median_max_side_t`, `midpoint_max_side_t`, `sliding_midpoint_max_side_t`
(kd_tree_builder.hpp:35-66). -/
inductive Rule where
  | median
  | midpoint
  | sliding
  deriving DecidableEq, Repr

/-- `max_leaf_size_t`, `max_leaf_depth_t` with their `size_t` value (kd_tree_builder.hpp:92-104).
The `assert(value > 0)` of `max_leaf_size_t` is not modelled: it is absent in release builds. -/
inductive Stop where
  | maxLeafSize (value : Nat)
  | maxLeafDepth (value : Nat)
  deriving DecidableEq, Repr

/-- `bounds_from_space_t`, `bounds_t` (kd_tree_builder.hpp:120-138). -/
inductive Bounds (α : Type) (d : Nat) where
  | fromSpace
  | given (min max : Pt α d)

/-- `static_cast<index_type>(stop_value)` for a signed index type of `w` bits
(kd_tree_builder.hpp:329). -/
def castIndex (w : Nat) (v : Nat) : Int := Int.bmod (v : Int) (2 ^ w)

/-- Result of a splitter call: the rearranged index range and the output arguments `split`
(relative to `begin`), `split_dim`, `split_val`. -/
structure Split (α : Type) (d : Nat) where
  seg : List Nat
  pos : Nat
  dim : Fin d
  val : α

/-- Everything that is fixed during one construction: the point set, the standard library, the
scalar type, the rule, the stop condition, the width of the index type, and how a branch node
stores the boxes of its children. -/
structure BuildCfg (α : Type) (d : Nat) (β : Type) where
  pts : Nat → Pt α d
  S : Std
  N : Num α
  rule : Rule
  stop : Stop
  indexBits : Nat
  setBranch : Box α d → Box α d → Fin d → β

section Splitters
variable {α : Type} [LT α] [LE α] [DecidableLT α] [DecidableLE α] [Sub α] [Add α] {d : Nat}

/-- The comparator lambda `space_[a][split_dim] < space_[b][split_dim]`
(kd_tree_builder.hpp:170-172, 258-260, 269-271). -/
def coordLt (pts : Nat → Pt α d) (dim : Fin d) (a b : Nat) : Bool := decide (pts a dim < pts b dim)

/-- The predicate lambda `space_[index][split_dim] < split_val`
(kd_tree_builder.hpp:208-210, 244-246). -/
def coordBelow (pts : Nat → Pt α d) (dim : Fin d) (v : α) (i : Nat) : Bool := decide (pts i dim < v)

/-- `std::nth_element(begin, begin + k, end, ...); split_val = space_[*split][split_dim]`
(kd_tree_builder.hpp:166-174, 253-261, 264-272).  Dereferencing `end` is undefined behaviour. -/
def nthSplit (S : Std) (pts : Nat → Pt α d) (dim : Fin d) (k : Nat) (seg : List Nat) :
    Outcome (Split α d) :=
  let seg' := S.nth (coordLt pts dim) k seg
  match seg'[k]? with
  | none => .ub
  | some i => .ok ⟨seg', k, dim, pts i dim⟩

/-- `splitter_median_max_side::operator()` (kd_tree_builder.hpp:153-175). -/
def splitMedian (S : Std) (N : Num α) (pts : Nat → Pt α d) (seg : List Nat) (box : Box α d) :
    Outcome (Split α d) :=
  match (box.maxSide N).1 with
  | none => .ub
  | some dim => nthSplit S pts dim (seg.length / 2) seg

/-- `splitter_midpoint_max_side::operator()` (kd_tree_builder.hpp:193-213). -/
def splitMidpoint (S : Std) (N : Num α) (pts : Nat → Pt α d) (seg : List Nat) (box : Box α d) :
    Outcome (Split α d) :=
  match box.maxSide N with
  | (none, _) => .ub
  | (some dim, delta) =>
    let v := N.mulHalf delta + box.min dim
    let (seg', k) := S.partition (coordBelow pts dim v) seg
    .ok ⟨seg', k, dim, v⟩

/-- `splitter_sliding_midpoint_max_side::operator()` (kd_tree_builder.hpp:229-274).  Moving
`split` before `begin` is undefined behaviour. -/
def splitSliding (S : Std) (N : Num α) (pts : Nat → Pt α d) (seg : List Nat) (box : Box α d) :
    Outcome (Split α d) :=
  match box.maxSide N with
  | (none, _) => .ub
  | (some dim, delta) =>
    let v := N.divTwo delta + box.min dim
    let (seg', k) := S.partition (coordBelow pts dim v) seg
    if k = seg'.length then
      match k with
      | 0 => .ub
      | k' + 1 => nthSplit S pts dim k' seg'
    else if k = 0 then nthSplit S pts dim 1 seg'
    else .ok ⟨seg', k, dim, v⟩

end Splitters

section Create
variable {α : Type} [LT α] [LE α] [DecidableLT α] [DecidableLE α] [Sub α] [Add α] {d : Nat} {β : Type}

/-- `splitter_rule_traits` (kd_tree_builder.hpp:282-303): the splitter selected by the rule. -/
def splitter (C : BuildCfg α d β) (seg : List Nat) (box : Box α d) : Outcome (Split α d) :=
  match C.rule with
  | .median => splitMedian C.S C.N C.pts seg box
  | .midpoint => splitMidpoint C.S C.N C.pts seg box
  | .sliding => splitSliding C.S C.N C.pts seg box

/-- `is_leaf` (kd_tree_builder.hpp:410-425). -/
def isLeaf (C : BuildCfg α d β) (depth : Int) (len : Nat) : Bool :=
  match C.stop with
  | .maxLeafSize v => decide ((len : Int) ≤ castIndex C.indexBits v)
  | .maxLeafDepth v => decide (depth = castIndex C.indexBits v) || decide (len ≤ 1)

/-- `compute_bounding_box` (kd_tree_builder.hpp:399-407). -/
def computeBoundingBox (N : Num α) (pts : Nat → Pt α d) (seg : List Nat) : Box α d :=
  seg.foldl (fun b i => b.fitPt (pts i)) (Box.inverseMax N)

/-- The box of a leaf (kd_tree_builder.hpp:365-371). -/
def leafBox (C : BuildCfg α d β) (seg : List Nat) (box : Box α d) : Box α d :=
  match C.rule with
  | .midpoint => if seg.length > 0 then computeBoundingBox C.N C.pts seg else box
  | _ => computeBoundingBox C.N C.pts seg

/-- `create_node` (kd_tree_builder.hpp:352-396).  `offset` is `begin - indices_.begin()`, `seg` the
contents of `[begin, end)`.  Returns the node, the new contents of `[begin, end)` and the new value
of the argument `box`.  The fuel bounds the recursion depth. -/
def createNode (C : BuildCfg α d β) :
    Nat → Int → Nat → List Nat → Box α d → Outcome (Tree β × List Nat × Box α d)
  | 0, _, _, _, _ => .oof
  | fuel + 1, depth, offset, seg, box =>
    if isLeaf C depth seg.length then
      .ok (.leaf offset (offset + seg.length), seg, leafBox C seg box)
    else
      (splitter C seg box).bind fun sp =>
        let right := box.setMin sp.dim sp.val
        let left := box.setMax sp.dim sp.val
        (createNode C fuel (depth + 1) offset (sp.seg.take sp.pos) left).bind fun (l, segL, boxL) =>
          (createNode C fuel (depth + 1) (offset + sp.pos) (sp.seg.drop sp.pos) right).bind
            fun (r, segR, boxR) =>
              .ok (.branch (C.setBranch boxL boxR sp.dim) l r, segL ++ segR, boxL.fitBox boxR)

/-- `space_wrapper::compute_bounding_box` (space_wrapper.hpp:34-40) and `box_from_bounds`
(kd_tree_builder.hpp:497-511). -/
def boxFromBounds (N : Num α) (pts : Nat → Pt α d) (n : Nat) : Bounds α d → Box α d
  | .fromSpace => (List.range n).foldl (fun b i => b.fitPt (pts i)) (Box.inverseMax N)
  | .given mn mx => ((Box.inverseMax N).fitPt mn).fitPt mx

/-- `build_kd_tree::operator()` (kd_tree_builder.hpp:466-494) with `build_kd_tree_impl::operator()`
(345-348), i.e. the `kd_tree` constructor (kd_tree.hpp:76-88).  The stored root box is the one
computed from the bounds, not the one updated by `create_node`.  `assert(space.size() > 0)` is not
modelled (absent in release builds); theorems that need `n > 0` say so. -/
def buildTree (C : BuildCfg α d β) (n : Nat) (bounds : Bounds α d) (fuel : Nat) :
    Outcome (TreeData α d β) :=
  let rootBox := boxFromBounds C.N C.pts n bounds
  (createNode C fuel 0 0 (List.range n) rootBox).bind fun (root, indices, _) =>
    .ok ⟨indices, rootBox, root⟩

end Create

end Pico
