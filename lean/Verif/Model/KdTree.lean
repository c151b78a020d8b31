import Verif.Model.Builder
import Verif.Model.Search

/-!
# The public class (kd_tree.hpp)
-/

namespace Pico

/-- `kd_tree` (kd_tree.hpp:24-50, 410-416): a space of `n` points, a metric (with its space
category) and the tree data. -/
structure KdTree (α : Type) (d : Nat) (β : Type) where
  tag : SpaceTag α d β
  metric : Metric α d
  num : Num α
  pts : Nat → Pt α d
  n : Nat
  data : TreeData α d β

/-- Arguments of the construction that are not part of the tree afterwards. -/
structure BuildOpts (α : Type) (d : Nat) where
  S : Std
  rule : Rule
  stop : Stop
  bounds : Bounds α d
  indexBits : Nat

namespace KdTree
variable {α : Type} [LT α] [LE α] [DecidableLT α] [DecidableLE α] {d : Nat} {β σ : Type}

/-- The configuration the constructor passes to the builder. -/
def cfg (tag : SpaceTag α d β) (N : Num α) (pts : Nat → Pt α d) (o : BuildOpts α d) :
    BuildCfg α d β where
  pts := pts
  S := o.S
  N := N
  rule := o.rule
  stop := o.stop
  indexBits := o.indexBits
  setBranch := tag.setBranch

/-- The constructor (kd_tree.hpp:76-88). -/
def make [Add α] [Sub α] (tag : SpaceTag α d β) (M : Metric α d) (N : Num α) (pts : Nat → Pt α d)
    (n : Nat) (o : BuildOpts α d) (fuel : Nat) : Outcome (KdTree α d β) :=
  (buildTree (cfg tag N pts o) n o.bounds fuel).bind fun t => .ok ⟨tag, M, N, pts, n, t⟩

section Nearest
variable [Zero α] [Add α] [Sub α]

/-- `search_nearest` (kd_tree.hpp:106-120, 382-408). -/
def searchNearest (T : KdTree α d β) (x : Pt α d) (V : Visitor α σ) (s : σ) : σ :=
  searchNearestRoot T.tag.splitDim (T.tag.pick T.metric x) V (fun i => T.metric.dist x (T.pts i))
    T.data.indices T.data.root s

/-- `search_nn` (kd_tree.hpp:125-129). -/
def searchNn (T : KdTree α d β) (x : Pt α d) (nn : Neighbor α) : Neighbor α :=
  T.searchNearest x nnVisitor (nnInit T.num nn)

/-- `search_knn(x, begin, end)` (kd_tree.hpp:168-181); `buf` is the contents of the range. -/
def searchKnnRange (T : KdTree α d β) (x : Pt α d) (buf : List (Neighbor α)) :
    Outcome (List (Neighbor α)) :=
  (knnInit T.num buf).bind fun s => .ok (T.searchNearest x (knnVisitor T.num) s).buf

/-- `std::vector::resize(k)`: cuts off or appends value-initialised elements. -/
def resize (k : Nat) (buf : List (Neighbor α)) : List (Neighbor α) :=
  buf.take k ++ List.replicate (k - buf.length) ⟨0, 0⟩

/-- `search_knn(x, k, knn)` (kd_tree.hpp:188-195). -/
def searchKnn (T : KdTree α d β) (x : Pt α d) (k : Nat) (knn : List (Neighbor α)) :
    Outcome (List (Neighbor α)) :=
  T.searchKnnRange x (resize (min k T.n) knn)

/-- `search_radius(x, radius, n, sort)` (kd_tree.hpp:256-268); `sorter` is `std::sort`. -/
def searchRadius (sorter : StdSort (Neighbor α)) (T : KdTree α d β) (x : Pt α d) (radius : α)
    (n : List (Neighbor α)) (sort : Bool) : List (Neighbor α) :=
  let out := T.searchNearest x (radiusVisitor radius) (radiusInit n)
  if sort then sorter.sort Neighbor.lt out else out

variable [One α] [Mul α] [Div α]

/-- Approximate `search_nn(x, e, nn)` (kd_tree.hpp:154-159). -/
def searchNnApprox (T : KdTree α d β) (x : Pt α d) (e : α) (nn : Neighbor α) : Neighbor α :=
  T.searchNearest x (approxNnVisitor e) (nnInit T.num nn)

/-- Approximate `search_knn(x, e, begin, end)` (kd_tree.hpp:204-218). -/
def searchKnnApproxRange (T : KdTree α d β) (x : Pt α d) (e : α) (buf : List (Neighbor α)) :
    Outcome (List (Neighbor α)) :=
  (knnInit T.num buf).bind fun s => .ok (T.searchNearest x (approxKnnVisitor T.num e) s).buf

/-- Approximate `search_knn(x, k, e, knn)` (kd_tree.hpp:227-237). -/
def searchKnnApprox (T : KdTree α d β) (x : Pt α d) (k : Nat) (e : α) (knn : List (Neighbor α)) :
    Outcome (List (Neighbor α)) :=
  T.searchKnnApproxRange x e (resize (min k T.n) knn)

/-- Approximate `search_radius(x, radius, e, n, sort)` (kd_tree.hpp:277-290). -/
def searchRadiusApprox (sorter : StdSort (Neighbor α)) (T : KdTree α d β) (x : Pt α d)
    (radius e : α) (n : List (Neighbor α)) (sort : Bool) : List (Neighbor α) :=
  let out := T.searchNearest x (approxRadiusVisitor e radius) (radiusInit n)
  if sort then sorter.sort Neighbor.lt out else out

end Nearest

/-- `idxs.clear()` (kd_tree.hpp:298). -/
def clearIdxs (_idxs : List Nat) : List Nat := []

/-- `search_box(min, max, idxs)` (kd_tree.hpp:295-318). -/
def searchBox (T : KdTree α d β) (mn mx : Pt α d) (idxs : List Nat) : List Nat :=
  let q : Box α d := ⟨mn, mx⟩
  (Pico.searchBox T.tag.splitDim T.tag.leftMax T.tag.rightMin
    (fun i => T.tag.containsPt T.metric q (T.pts i)) (T.tag.containsBox T.metric q)
    (T.tag.intersectsLeft q) (T.tag.intersectsRight q) T.data.indices T.data.root
    (T.data.rootBox, clearIdxs idxs)).2

/-- `leaf_ranges` (kd_tree.hpp:325-327). -/
def leafRanges (T : KdTree α d β) : Outcome (List (Nat × Nat)) := T.data.leafRanges

end KdTree

end Pico
