import Verif.Model.Tree
import Verif.Model.Visitor

/-!
# Searches on a tree (internal/kd_tree_search.hpp)

The Euclidean and the topological variants of the code differ only in the places collected in
`SpaceTag`; selecting a `SpaceTag` corresponds to the tag dispatch on `Metric_::space_category`.
-/

namespace Pico

/-- What depends on the space category of the metric. -/
structure SpaceTag (α : Type) (d : Nat) (β : Type) where
  /-- `set_branch` of the node type. -/
  setBranch : Box α d → Box α d → Fin d → β
  /-- `node->data.branch.split_dim`. -/
  splitDim : β → Fin d
  /-- `node->data.branch.left_max`. -/
  leftMax : β → α
  /-- `node->data.branch.right_min`. -/
  rightMin : β → α
  /-- Which child is visited first (`true`: left) and `new_offset`, the offset of the second. -/
  pick : Metric α d → Pt α d → β → Bool × α
  /-- `query_.contains(point)`. -/
  containsPt : Metric α d → Box α d → Pt α d → Bool
  /-- `query_.contains(box_)`. -/
  containsBox : Metric α d → Box α d → Box α d → Bool
  /-- `intersects_left`. -/
  intersectsLeft : Box α d → β → Bool
  /-- `intersects_right`. -/
  intersectsRight : Box α d → β → Bool

section Tags
variable {α : Type} [LT α] [LE α] [DecidableLT α] [DecidableLE α] [Zero α] [One α] [Add α] [Sub α] [Neg α] {d : Nat}

/-- Choice of the first child in `search_nearest_euclidean` (kd_tree_search.hpp:63-85). -/
def pickEuclidean (M : Metric α d) (q : Pt α d) (b : Branch1 α d) : Bool × α :=
  let v := q b.splitDim
  if b.leftMax + b.rightMin - v - v > 0 then (true, M.one (b.rightMin - v))
  else (false, M.one (b.leftMax - v))

/-- `search_nearest_topological::box_distance` (kd_tree_search.hpp:205-221). -/
def boxDistance (M : Metric α d) (mn mx v : α) (dim : Fin d) : α :=
  M.one (match M.space dim with
    | .r1 => Segment.r1Distance ⟨mn, mx⟩ v
    | .s1 => Segment.s1Distance ⟨mn, mx⟩ v)

/-- Choice of the first child in `search_nearest_topological` (kd_tree_search.hpp:161-186). -/
def pickTopological (M : Metric α d) (q : Pt α d) (b : Branch2 α d) : Bool × α :=
  let v := q b.splitDim
  let d1 := boxDistance M b.leftMin b.leftMax v b.splitDim
  let d2 := boxDistance M b.rightMin b.rightMax v b.splitDim
  if d1 < d2 then (true, d2) else (false, d1)

/-- `euclidean_space_tag`: search_nearest_euclidean (kd_tree_search.hpp:24-113) and the Euclidean
branches of search_box (252-255, 315-333). -/
def euclideanTag (α : Type) [LT α] [LE α] [DecidableLT α] [DecidableLE α] [Zero α] [Add α] [Sub α] (d : Nat) :
    SpaceTag α d (Branch1 α d) where
  setBranch := setBranchEuclidean
  splitDim b := b.splitDim
  leftMax b := b.leftMax
  rightMin b := b.rightMin
  pick := pickEuclidean
  containsPt _ q x := q.containsPt x
  containsBox _ q x := q.containsBox x
  intersectsLeft q b := decide (q.min b.splitDim ≤ b.leftMax)
  intersectsRight q b := decide (q.max b.splitDim ≥ b.rightMin)

/-- `topological_space_tag`: search_nearest_topological (kd_tree_search.hpp:122-229) and the other
branches of search_box (252-255, 315-333). -/
def topologicalTag (α : Type) [LT α] [LE α] [DecidableLT α] [DecidableLE α] [Zero α] [One α] [Sub α] [Neg α] (d : Nat) :
    SpaceTag α d (Branch2 α d) where
  setBranch := setBranchTopological
  splitDim b := b.splitDim
  leftMax b := b.leftMax
  rightMin b := b.rightMin
  pick := pickTopological
  containsPt M q x := q.topContainsPt M.space x
  containsBox M q x := q.topContainsBox M.space x
  intersectsLeft q b :=
    decide (q.min b.splitDim ≤ b.leftMax) || decide (q.max b.splitDim ≥ b.leftMin)
  intersectsRight q b :=
    decide (q.max b.splitDim ≥ b.rightMin) || decide (q.min b.splitDim ≤ b.rightMax)

end Tags

section Nearest
variable {α : Type} [LT α] [LE α] [DecidableLT α] [DecidableLE α] [Zero α] [Add α] [Sub α] {d : Nat} {β σ : Type}

/-- The leaf loop `for (; begin < end; ++begin) visitor_(*begin, metric_(...))`
(kd_tree_search.hpp:54-59, 152-157). -/
def visitAll (V : Visitor α σ) (dist : Nat → α) (l : List Nat) (s : σ) : σ :=
  l.foldl (fun s i => V.visit s i (dist i)) s

/-- `search_nearest` (kd_tree_search.hpp:52-105, 150-203).  The mutable members are
`node_box_offset_` and the visitor; both are threaded through.  `dist i` is
`metric_(query_.begin(), query_.end(), space_[i])`. -/
def searchNearest (splitDim : β → Fin d) (pick : β → Bool × α) (V : Visitor α σ) (dist : Nat → α)
    (indices : List Nat) : Tree β → α → Pt α d × σ → Pt α d × σ
  | .leaf b e, _, st => (st.1, visitAll V dist (slice indices b e) st.2)
  | .branch data l r, nodeBoxDistance, st =>
    let dim := splitDim data
    let leftFirst := (pick data).1
    let newOffset := (pick data).2
    let st1 := if leftFirst then searchNearest splitDim pick V dist indices l nodeBoxDistance st
               else searchNearest splitDim pick V dist indices r nodeBoxDistance st
    let oldOffset := st1.1 dim
    let nodeBoxDistance' := nodeBoxDistance - oldOffset + newOffset
    if V.max st1.2 ≥ nodeBoxDistance' then
      let st' := (Function.update st1.1 dim newOffset, st1.2)
      let st2 := if leftFirst then
          searchNearest splitDim pick V dist indices r nodeBoxDistance' st'
        else searchNearest splitDim pick V dist indices l nodeBoxDistance' st'
      (Function.update st2.1 dim oldOffset, st2.2)
    else st1

/-- `operator()` of the searches (kd_tree_search.hpp:46-49, 144-147). -/
def searchNearestRoot (splitDim : β → Fin d) (pick : β → Bool × α) (V : Visitor α σ)
    (dist : Nat → α) (indices : List Nat) (root : Tree β) (s : σ) : σ :=
  (searchNearest splitDim pick V dist indices root 0 (fun _ => 0, s)).2

end Nearest

section BoxSearch
variable {α : Type} {d : Nat} {β : Type}

/-- `report_left` (kd_tree_search.hpp:358-364). -/
def reportLeft : Tree β → Nat
  | .leaf b _ => b
  | .branch _ l _ => reportLeft l

/-- `report_right` (kd_tree_search.hpp:366-372). -/
def reportRight : Tree β → Nat
  | .leaf _ e => e
  | .branch _ _ r => reportRight r

/-- `report_node` (kd_tree_search.hpp:336-356): appends `indices[begin, end)`. -/
def reportNode (indices : List Nat) (t : Tree β) (idxs : List Nat) : List Nat :=
  match t with
  | .leaf b e => idxs ++ slice indices b e
  | .branch _ l r => idxs ++ slice indices (reportLeft l) (reportRight r)

/-- `search_box::operator()` (kd_tree_search.hpp:270-306).  The mutable members are the running box
`box_` and the output `idxs_`.  `containsPt i` is `contains(i)` (309-311), `containsBox b` is
`query_.contains(box_)`. -/
def searchBox (splitDim : β → Fin d) (leftMax rightMin : β → α) (containsPt : Nat → Bool)
    (containsBox : Box α d → Bool) (intersectsLeft intersectsRight : β → Bool)
    (indices : List Nat) : Tree β → Box α d × List Nat → Box α d × List Nat
  | .leaf b e, st => (st.1, st.2 ++ (slice indices b e).filter containsPt)
  | .branch data l r, st =>
    let dim := splitDim data
    let oldMax := st.1.max dim
    let st1 := (st.1.setMax dim (leftMax data), st.2)
    let st2 :=
      if containsBox st1.1 then (st1.1, reportNode indices l st1.2)
      else if intersectsLeft data then
        searchBox splitDim leftMax rightMin containsPt containsBox intersectsLeft intersectsRight
          indices l st1
      else st1
    let box3 := st2.1.setMax dim oldMax
    let oldMin := box3.min dim
    let st4 := (box3.setMin dim (rightMin data), st2.2)
    let st5 :=
      if containsBox st4.1 then (st4.1, reportNode indices r st4.2)
      else if intersectsRight data then
        searchBox splitDim leftMax rightMin containsPt containsBox intersectsLeft intersectsRight
          indices r st4
      else st4
    (st5.1.setMin dim oldMin, st5.2)

end BoxSearch

end Pico
