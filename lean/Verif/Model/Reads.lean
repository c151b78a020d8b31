import Verif.Model.KdTree

/-!
# Searches with every read of a query, a point, a corner and an index checked

`Model/Search.lean` has the dimension in the type of a query. Here a query is what the code sees: a pointer to scalars
(and for `search_nearest` a second one behind the last scalar). A read that is not inside of the object the pointer points
to is undefined behaviour. Nodes, `node_box_offset_` and `box_` belong to the tree and have its dimension.
-/

namespace Pico

/-- What `p[j]` gives. -/
abbrev Reader (α : Type) := Nat → Outcome α

/-- Element `i` of an array. -/
def rd {τ : Type} (l : List τ) (i : Nat) : Outcome τ :=
  match l[i]? with
  | some v => .ok v
  | none => .ub

/-- A pointer to the scalars of a point of the tree (`box::min()`, `box::max()`, box.hpp:209-215). -/
def ptr {α : Type} {d : Nat} (p : Pt α d) : Reader α := fun j => if h : j < d then .ok (p ⟨j, h⟩) else .ub

/-- `space_wrapper::operator[]` for a vector of arrays (space_wrapper.hpp:29-32, vector_traits.hpp:30-34,
array_traits.hpp): a pointer into the array at `i`. -/
def vectorSpace {α : Type} (pts : List (List α)) (i : Nat) : Reader α := fun j => (rd pts i).bind fun p => rd p j

/-- The same for a `space_map` of scalars (map.hpp:153-161): a pointer into the one array of all scalars. -/
def mapSpace {α : Type} (buf : List α) (d i : Nat) : Reader α := fun j => rd buf (i * d + j)

/-- The range `[begin + b, begin + e)` of a vector, for a loop `for (; begin < end; ++begin)`. -/
def sliceC {τ : Type} (l : List τ) (b e : Nat) : Outcome (List τ) :=
  if b ≤ l.length ∧ e ≤ l.length then .ok (slice l b e) else .ub

/-- The same for `std::copy`, which needs `b ≤ e`. -/
def sliceCopy {τ : Type} (l : List τ) (b e : Nat) : Outcome (List τ) :=
  if b ≤ e then sliceC l b e else .ub

/-! ## Metrics on iterators -/

/-- A metric object: `dist` is `operator()(begin1, end1, begin2)` with the scalars of the query and the pointer
`begin2`. -/
structure IterMetric (α : Type) where
  dist : List α → Reader α → Outcome α
  one : α → α
  space : Nat → OneSpace

/-- `for (; begin1 != end1; ++begin1, ++begin2) d = op(d, *begin1, *begin2)`. -/
def iterFold {α : Type} (op : α → α → α → α) : α → List α → Reader α → Outcome α
  | acc, [], _ => .ok acc
  | acc, x :: xs, p => (p 0).bind fun y => iterFold op (op acc x y) xs fun j => p (j + 1)

section IterMetrics
variable {α : Type} [LT α] [DecidableLT α] [Zero α] [One α] [Add α] [Sub α] [Neg α] [Mul α]

/-- `metric_l1` (metric.hpp:78-98, 31-51). -/
def iterL1 (α : Type) [LT α] [DecidableLT α] [Zero α] [Add α] [Sub α] [Neg α] : IterMetric α where
  dist x p := iterFold (fun d a b => d + r1Distance a b) 0 x p
  one x := sabs x
  space _ := .r1

/-- `metric_l2_squared` (metric.hpp:103-124, 31-51). -/
def iterL2Sq (α : Type) [Zero α] [Add α] [Sub α] [Mul α] : IterMetric α where
  dist x p := iterFold (fun d a b => d + squaredR1Distance a b) 0 x p
  one x := squared x
  space _ := .r1

/-- `metric_lpinf` (metric.hpp:126-155). -/
def iterLPInf (α : Type) [LT α] [DecidableLT α] [Zero α] [Sub α] [Neg α] : IterMetric α where
  dist x p := iterFold (fun d a b => stdMax d (r1Distance a b)) 0 x p
  one x := sabs x
  space _ := .r1

/-- `metric_lninf` (metric.hpp:157-186). -/
def iterLNInf {α : Type} [LT α] [DecidableLT α] [Zero α] [Sub α] [Neg α] (N : Num α) : IterMetric α where
  dist x p := iterFold (fun d a b => stdMin d (r1Distance a b)) N.big x p
  one x := sabs x
  space _ := .r1

/-- `metric_so2` (metric.hpp:197-220): the end of the query is not looked at. -/
def iterSO2 (α : Type) [LT α] [DecidableLT α] [Zero α] [One α] [Sub α] [Neg α] : IterMetric α where
  dist x p := (rd x 0).bind fun a => (p 0).bind fun b => .ok (s1Distance a b)
  one x := sabs x
  space _ := .s1

/-- `metric_se2_squared` (metric.hpp:228-257): the end of the query is not looked at. -/
def iterSE2Sq (α : Type) [LT α] [DecidableLT α] [Zero α] [One α] [Add α] [Sub α] [Neg α] [Mul α] : IterMetric α where
  dist x p :=
    (rd x 0).bind fun a0 => (p 0).bind fun b0 => (rd x 1).bind fun a1 => (p 1).bind fun b1 =>
      (rd x 2).bind fun a2 => (p 2).bind fun b2 =>
        .ok (((0 + squaredR1Distance a0 b0) + squaredR1Distance a1 b1) + squaredS1Distance a2 b2)
  one x := squared x
  space i := if i < 2 then .r1 else .s1

/-- `metric_so2` as an object for points of any dimension: nothing in the class or in `kd_tree` asks for dimension one
(metric.hpp:197-220). -/
def metricSO2At (α : Type) [LT α] [DecidableLT α] [Zero α] [One α] [Sub α] [Neg α] (d : Nat) (hd : 0 < d) :
    Metric α d where
  dist x y := s1Distance (x ⟨0, hd⟩) (y ⟨0, hd⟩)
  one x := sabs x
  space _ := .s1

/-- `metric_se2_squared` for points of any dimension from three on (metric.hpp:228-257). -/
def metricSE2SqAt (α : Type) [LT α] [DecidableLT α] [Zero α] [One α] [Add α] [Sub α] [Neg α] [Mul α] (d : Nat)
    (hd : 3 ≤ d) : Metric α d where
  dist x y := ((0 + squaredR1Distance (x ⟨0, by omega⟩) (y ⟨0, by omega⟩)) +
      squaredR1Distance (x ⟨1, by omega⟩) (y ⟨1, by omega⟩)) + squaredS1Distance (x ⟨2, hd⟩) (y ⟨2, hd⟩)
  one x := squared x
  space i := if i.val < 2 then .r1 else .s1

end IterMetrics

/-! ## The places that depend on the space category -/

/-- What depends on the space category of the metric (compare `SpaceTag`). Corners are pointers. -/
structure ReadTag (α : Type) (d : Nat) (β : Type) where
  /-- The first child and the offset of the second one, from the coordinate of the query along the split. -/
  pick : IterMetric α → α → β → Bool × α
  /-- `query_.contains(point)` for a query with the corners `mn`, `mx`. -/
  containsPt : IterMetric α → Reader α → Reader α → Reader α → Outcome Bool
  /-- `query_.contains(box_)`. -/
  containsBox : IterMetric α → Reader α → Reader α → Box α d → Outcome Bool
  intersectsLeft : Reader α → Reader α → β → Outcome Bool
  intersectsRight : Reader α → Reader α → β → Outcome Bool

/-- `for i in l: if (!f(i)) return false; return true`. -/
def loopAll (f : Nat → Outcome Bool) : List Nat → Outcome Bool
  | [] => .ok true
  | i :: is => (f i).bind fun b => if b then loopAll f is else .ok false

/-- `a || b`: the second operand is evaluated only if the first one is false. -/
def orElse (a b : Outcome Bool) : Outcome Bool := a.bind fun x => if x then .ok true else b

/-- `a && b`. -/
def andAlso (a b : Outcome Bool) : Outcome Bool := a.bind fun x => if x then b else .ok false

section Tags
variable {α : Type} [LT α] [LE α] [DecidableLT α] [DecidableLE α] [Zero α] [One α] [Add α] [Sub α] [Neg α] {d : Nat}

/-- `box_map::contains(x)` (box.hpp:31-40): `size()` is the dimension of the tree (kd_tree.hpp:313-316). -/
def containsC (d : Nat) (mn mx x : Reader α) : Outcome Bool :=
  loopAll (fun i => (orElse ((mn i).bind fun a => (x i).bind fun v => .ok (decide (a > v)))
    ((mx i).bind fun b => (x i).bind fun v => .ok (decide (b < v)))).bind fun out => .ok !out) (List.range d)

/-- Choice of the first child in `search_nearest_euclidean` (kd_tree_search.hpp:63-85). -/
def pickEuclideanC (I : IterMetric α) (v : α) (b : Branch1 α d) : Bool × α :=
  if b.leftMax + b.rightMin - v - v > 0 then (true, I.one (b.rightMin - v)) else (false, I.one (b.leftMax - v))

/-- `euclidean_space_tag` (kd_tree_search.hpp:24-113, 315-333; box.hpp:31-47). -/
def euclideanRead (α : Type) [LT α] [LE α] [DecidableLT α] [DecidableLE α] [Zero α] [Add α] [Sub α] (d : Nat) :
    ReadTag α d (Branch1 α d) where
  pick := pickEuclideanC
  containsPt _ mn mx x := containsC d mn mx x
  containsBox _ mn mx b := andAlso (containsC d mn mx (ptr b.min)) (containsC d mn mx (ptr b.max))
  intersectsLeft mn _ b := (mn b.splitDim).bind fun a => .ok (decide (a ≤ b.leftMax))
  intersectsRight _ mx b := (mx b.splitDim).bind fun a => .ok (decide (a ≥ b.rightMin))

/-- `search_nearest_topological::box_distance` (kd_tree_search.hpp:205-221). -/
def boxDistanceC (I : IterMetric α) (mn mx v : α) (dim : Nat) : α :=
  I.one (match I.space dim with
    | .r1 => Segment.r1Distance ⟨mn, mx⟩ v
    | .s1 => Segment.s1Distance ⟨mn, mx⟩ v)

/-- Choice of the first child in `search_nearest_topological` (kd_tree_search.hpp:161-186). -/
def pickTopologicalC (I : IterMetric α) (v : α) (b : Branch2 α d) : Bool × α :=
  let d1 := boxDistanceC I b.leftMin b.leftMax v b.splitDim
  let d2 := boxDistanceC I b.rightMin b.rightMax v b.splitDim
  if d1 < d2 then (true, d2) else (false, d1)

/-- `metric_box_map::contains` along one axis (box.hpp:354-372). -/
def containsAxis (s : OneSpace) (a b v : α) : Bool :=
  match s with
  | .r1 => Segment.r1Contains ⟨a, b⟩ v
  | .s1 => Segment.s1Contains ⟨a, b⟩ v

/-- The same for a side of a box. -/
def containsSide (s : OneSpace) (a b v w : α) : Bool :=
  match s with
  | .r1 => Segment.r1ContainsSeg ⟨a, b⟩ ⟨v, w⟩
  | .s1 => Segment.s1ContainsSeg ⟨a, b⟩ ⟨v, w⟩

/-- `topological_space_tag` (kd_tree_search.hpp:122-229, 315-333; box.hpp:317-341). -/
def topologicalRead (α : Type) [LT α] [LE α] [DecidableLT α] [DecidableLE α] [Zero α] [One α] [Sub α] [Neg α]
    (d : Nat) : ReadTag α d (Branch2 α d) where
  pick := pickTopologicalC
  containsPt I mn mx x := loopAll (fun i => (mn i).bind fun a => (mx i).bind fun b => (x i).bind fun v =>
    .ok (containsAxis (I.space i) a b v)) (List.range d)
  containsBox I mn mx x := loopAll (fun i => (mn i).bind fun a => (mx i).bind fun b => (ptr x.min i).bind fun v =>
    (ptr x.max i).bind fun w => .ok (containsSide (I.space i) a b v w)) (List.range d)
  intersectsLeft mn mx b := orElse ((mn b.splitDim).bind fun a => .ok (decide (a ≤ b.leftMax)))
    ((mx b.splitDim).bind fun a => .ok (decide (a ≥ b.leftMin)))
  intersectsRight mn mx b := orElse ((mx b.splitDim).bind fun a => .ok (decide (a ≥ b.rightMin)))
    ((mn b.splitDim).bind fun a => .ok (decide (a ≤ b.rightMax)))

end Tags

/-! ## Nearest -/

section Nearest
variable {α : Type} [LT α] [LE α] [DecidableLT α] [DecidableLE α] [Zero α] [Add α] [Sub α] {d : Nat} {β σ : Type}

/-- The leaf loop (kd_tree_search.hpp:54-59, 152-157). -/
def visitAllC (V : Visitor α σ) (dist : Nat → Outcome α) : List Nat → σ → Outcome σ
  | [], s => .ok s
  | i :: is, s => (dist i).bind fun x => visitAllC V dist is (V.visit s i x)

/-- `search_nearest` (kd_tree_search.hpp:52-105, 150-203); `q` is `query_[..]`, `dist i` is
`metric_(query_.begin(), query_.end(), space_[i])`. -/
def searchNearestC (splitDim : β → Fin d) (pick : α → β → Bool × α) (V : Visitor α σ) (q : Reader α)
    (dist : Nat → Outcome α) (indices : List Nat) : Tree β → α → Pt α d × σ → Outcome (Pt α d × σ)
  | .leaf b e, _, st =>
    (sliceC indices b e).bind fun l => (visitAllC V dist l st.2).bind fun s => .ok (st.1, s)
  | .branch data l r, nodeBoxDistance, st =>
    (q (splitDim data)).bind fun v =>
    (if (pick v data).1 then searchNearestC splitDim pick V q dist indices l nodeBoxDistance st
      else searchNearestC splitDim pick V q dist indices r nodeBoxDistance st).bind fun st1 =>
    if V.max st1.2 ≥ nodeBoxDistance - st1.1 (splitDim data) + (pick v data).2 then
      (if (pick v data).1 then
          searchNearestC splitDim pick V q dist indices r (nodeBoxDistance - st1.1 (splitDim data) + (pick v data).2)
            (Function.update st1.1 (splitDim data) (pick v data).2, st1.2)
        else
          searchNearestC splitDim pick V q dist indices l (nodeBoxDistance - st1.1 (splitDim data) + (pick v data).2)
            (Function.update st1.1 (splitDim data) (pick v data).2, st1.2)).bind fun st2 =>
      .ok (Function.update st2.1 (splitDim data) (st1.1 (splitDim data)), st2.2)
    else .ok st1

/-- `kd_tree::search_nearest` (kd_tree.hpp:106-120, 382-408) with the scalars of the query in `q`; `space i` is
`space_[i]`. -/
def KdTree.searchNearestC (T : KdTree α d β) (R : ReadTag α d β) (I : IterMetric α) (space : Nat → Reader α) (q : List α)
    (V : Visitor α σ) (s : σ) : Outcome σ :=
  (Pico.searchNearestC T.tag.splitDim (R.pick I) V (rd q) (fun i => I.dist q (space i)) T.data.indices T.data.root 0
    (fun _ => 0, s)).bind fun st => .ok st.2

end Nearest

/-! ## Boxes -/

section Boxes
variable {α : Type} {d : Nat} {β : Type}

/-- `report_node` (kd_tree_search.hpp:336-356). -/
def reportNodeC (indices : List Nat) (t : Tree β) (idxs : List Nat) : Outcome (List Nat) :=
  match t with
  | .leaf b e => (sliceCopy indices b e).bind fun l => .ok (idxs ++ l)
  | .branch _ l r => (sliceCopy indices (reportLeft l) (reportRight r)).bind fun l => .ok (idxs ++ l)

/-- `for (; begin < end; ++begin) if (contains(*begin)) idxs_.push_back(*begin)` (kd_tree_search.hpp:271-278). -/
def filterC (f : Nat → Outcome Bool) : List Nat → List Nat → Outcome (List Nat)
  | [], idxs => .ok idxs
  | i :: is, idxs => (f i).bind fun b => filterC f is (if b then idxs ++ [i] else idxs)

/-- `search_box::operator()` (kd_tree_search.hpp:270-306). -/
def searchBoxC (splitDim : β → Fin d) (leftMax rightMin : β → α) (containsPt : Nat → Outcome Bool)
    (containsBox : Box α d → Outcome Bool) (intersectsLeft intersectsRight : β → Outcome Bool) (indices : List Nat) :
    Tree β → Box α d × List Nat → Outcome (Box α d × List Nat)
  | .leaf b e, st => (sliceC indices b e).bind fun l => (filterC containsPt l st.2).bind fun o => .ok (st.1, o)
  | .branch data l r, st =>
    (containsBox (st.1.setMax (splitDim data) (leftMax data))).bind fun c =>
    (if c then
        (reportNodeC indices l st.2).bind fun o => .ok (st.1.setMax (splitDim data) (leftMax data), o)
      else (intersectsLeft data).bind fun i =>
        if i then
          searchBoxC splitDim leftMax rightMin containsPt containsBox intersectsLeft intersectsRight indices l
            (st.1.setMax (splitDim data) (leftMax data), st.2)
        else .ok (st.1.setMax (splitDim data) (leftMax data), st.2)).bind fun st2 =>
    let box3 := st2.1.setMax (splitDim data) (st.1.max (splitDim data))
    (containsBox (box3.setMin (splitDim data) (rightMin data))).bind fun c =>
    (if c then
        (reportNodeC indices r st2.2).bind fun o => .ok (box3.setMin (splitDim data) (rightMin data), o)
      else (intersectsRight data).bind fun i =>
        if i then
          searchBoxC splitDim leftMax rightMin containsPt containsBox intersectsLeft intersectsRight indices r
            (box3.setMin (splitDim data) (rightMin data), st2.2)
        else .ok (box3.setMin (splitDim data) (rightMin data), st2.2)).bind fun st5 =>
    .ok (st5.1.setMin (splitDim data) (box3.min (splitDim data)), st5.2)

/-- `kd_tree::search_box` (kd_tree.hpp:295-318) with the scalars of the corners in `mn`, `mx`. -/
def KdTree.searchBoxC (T : KdTree α d β) (R : ReadTag α d β) (I : IterMetric α) (space : Nat → Reader α) (mn mx : List α)
    (idxs : List Nat) : Outcome (List Nat) :=
  (Pico.searchBoxC T.tag.splitDim T.tag.leftMax T.tag.rightMin (fun i => R.containsPt I (rd mn) (rd mx) (space i))
    (R.containsBox I (rd mn) (rd mx)) (R.intersectsLeft (rd mn) (rd mx)) (R.intersectsRight (rd mn) (rd mx))
    T.data.indices T.data.root (T.data.rootBox, KdTree.clearIdxs idxs)).bind fun st => .ok st.2

end Boxes

/-! ## Start bounds -/

section Bounds
variable {α : Type} [LT α] [DecidableLT α] {d : Nat}

/-- Loop body of `fit(x)` (box.hpp:86-95). -/
def fitStep (x : Reader α) (b : Outcome (Box α d)) (i : Fin d) : Outcome (Box α d) :=
  b.bind fun b => (x i).bind fun v =>
    let b1 := if v < b.min i then b.setMin i v else b
    .ok (if v > b1.max i then b1.setMax i v else b1)

/-- `fit(x)` (box.hpp:86-95). -/
def fitC (b : Box α d) (x : Reader α) : Outcome (Box α d) := (List.finRange d).foldl (fitStep x) (.ok b)

/-- `box_from_bounds` for `bounds_t` (kd_tree_builder.hpp:502-511) with the scalars of the corners in `mn`, `mx`. -/
def boundsC (N : Num α) (mn mx : List α) : Outcome (Box α d) :=
  (fitC (Box.inverseMax N) (rd mn)).bind fun b => fitC b (rd mx)

end Bounds

/-! ## What the compiler rejects

`none` is `dynamic_extent`. -/

/-- The assertion of `search_nearest` on the dimensions (kd_tree.hpp:113-116). -/
def nearestCompiles (dimTree dimQuery : Option Nat) : Bool :=
  decide (dimTree = dimQuery) || decide (dimTree = none) || decide (dimQuery = none)

/-- `search_box` has no assertion on the dimensions (kd_tree.hpp:295-318). -/
def boxCompiles (_dimTree _dimQuery : Option Nat) : Bool := true

/-- `bounds_t` has no assertion on the dimensions (kd_tree_builder.hpp:119-140, 502-511). -/
def boundsCompile (_dimTree _dimBounds : Option Nat) : Bool := true

/-- A query type with the dimension `dimQuery` can hold the scalars `q` (point_wrapper.hpp:36-42). -/
def fitsType (dimQuery : Option Nat) {α : Type} (q : List α) : Prop := ∀ m, dimQuery = some m → q.length = m

end Pico
