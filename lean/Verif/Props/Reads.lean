import Verif.Proof.Reads
import Verif.Props.Builder

/-!
# C121: a query of another dimension is rejected, and a query of the right one is read inside of its bounds
-/

set_option linter.unusedSectionVars false

namespace Pico.Props

open Pico Spec

section
variable {α : Type} [LinearOrder α] [Zero α] [One α] [Add α] [Sub α] [Neg α] [Mul α] {d : Nat}

/-- The pointers of the space lead to the coordinates of the points. -/
def Holds (space : Nat → Reader α) (pts : Nat → Pt α d) (n : Nat) : Prop :=
  ∀ i < n, ∀ j : Fin d, space i j = .ok (pts i j)

/-- A vector of `n` arrays with `d` scalars each. -/
theorem holds_vector (pts : Nat → Pt α d) (n : Nat) :
    Holds (vectorSpace ((List.range n).map fun i => List.ofFn (pts i))) pts n := by
  intro i hi j
  unfold vectorSpace
  rw [rd_of_lt (by simpa using hi), Outcome.bind_ok, List.getElem_map, List.getElem_range, rd_ofFn]

/-- One array with all scalars, point after point. -/
theorem holds_map (pts : Nat → Pt α d) (n : Nat) :
    Holds (mapSpace ((List.range n).flatMap fun i => List.ofFn (pts i)) d) pts n := by
  have key : ∀ (l : List Nat) (i : Nat) (hi : i < l.length) (j : Fin d),
      (l.flatMap fun i => List.ofFn (pts i))[i * d + j]? = some (pts l[i] j) := by
    intro l
    induction l with
    | nil => intro i hi; exact absurd hi (by simp)
    | cons a l ih =>
      intro i hi j
      rw [List.flatMap_cons]
      cases i with
      | zero =>
        rw [Nat.zero_mul, Nat.zero_add, List.getElem?_append_left (by simp)]
        simp
      | succ i =>
        have hd : (i + 1) * d + j = (List.ofFn (pts a)).length + (i * d + j) := by
          rw [List.length_ofFn, Nat.succ_mul]; omega
        rw [hd, List.getElem?_append_right (by omega), Nat.add_sub_cancel_left,
          ih i (by simpa using hi) j]
        simp
  intro i hi j
  unfold mapSpace rd
  rw [key (List.range n) i (by simpa using hi) j, List.getElem_range]

/-- The metric on iterators computes the metric on points, for queries of the right dimension. -/
structure Computes (I : IterMetric α) (M : Metric α d) : Prop where
  dist : ∀ (x y : Pt α d) (p : Reader α), (∀ j : Fin d, p j = .ok (y j)) → I.dist (List.ofFn x) p = .ok (M.dist x y)
  one : ∀ v, I.one v = M.one v
  space : ∀ j : Fin d, I.space j = M.space j

theorem computes_l1 : Computes (iterL1 α) (metricL1 α d) :=
  ⟨fun x y p hp => iterFold_ofFn _ x y p hp _, fun _ => rfl, fun _ => rfl⟩

theorem computes_l2 : Computes (iterL2Sq α) (metricL2Sq α d) :=
  ⟨fun x y p hp => iterFold_ofFn _ x y p hp _, fun _ => rfl, fun _ => rfl⟩

theorem computes_lpinf : Computes (iterLPInf α) (metricLPInf α d) :=
  ⟨fun x y p hp => iterFold_ofFn _ x y p hp _, fun _ => rfl, fun _ => rfl⟩

theorem computes_lninf (N : Num α) : Computes (iterLNInf N) (metricLNInf N d) :=
  ⟨fun x y p hp => iterFold_ofFn _ x y p hp _, fun _ => rfl, fun _ => rfl⟩

theorem computes_so2 : Computes (iterSO2 α) (metricSO2 α) := by
  refine ⟨fun x y p hp => ?_, fun _ => rfl, fun _ => rfl⟩
  have h0 := hp 0
  have h0' := rd_ofFn x 0
  simp only [Fin.val_zero] at h0 h0'
  simp only [iterSO2, h0, h0', Outcome.bind_ok]
  rfl

theorem computes_se2 : Computes (iterSE2Sq α) (metricSE2Sq α) := by
  refine ⟨fun x y p hp => ?_, fun _ => rfl, fun _ => rfl⟩
  have h0 := hp 0
  have h1 := hp 1
  have h2 := hp 2
  have h0' := rd_ofFn x 0
  have h1' := rd_ofFn x 1
  have h2' := rd_ofFn x 2
  simp only [Fin.val_zero, Fin.val_one, Fin.val_two] at h0 h0' h1 h1' h2 h2'
  simp only [iterSE2Sq, h0, h0', h1, h1', h2, h2', Outcome.bind_ok]
  rfl

variable {M : Metric α d} {N : Num α} {pts : Nat → Pt α d} {n : Nat} {o : BuildOpts α d} {fuel : Nat}

/-- The first `d` scalars of a list that has as many. -/
def firstOf (q : List α) (h : d ≤ q.length) : Pt α d := fun j => q[j.1]'(by have := j.2; omega)

theorem rd_firstOf {q : List α} (h : d ≤ q.length) (j : Fin d) : rd q j = .ok (firstOf q h j) :=
  rd_of_lt _

theorem ofFn_firstOf {q : List α} (h : q.length = d) : List.ofFn (firstOf q (d := d) h.ge) = q := by
  subst h
  exact List.ofFn_getElem

theorem reads_tree {β : Type} {tag : SpaceTag α d β} {T : KdTree α d β}
    (h : KdTree.make tag M N pts n o fuel = .ok T) :
    (∀ i ∈ T.data.indices, i < n) ∧ T.data.indices.length = n ∧ Tiles 0 (ranges T.data.root) n ∧
      ∀ r ∈ ranges T.data.root, r.1 ≤ T.data.indices.length ∧ r.2 ≤ T.data.indices.length := by
  obtain ⟨h1, h2, -⟩ := c16_partition h
  have hl : T.data.indices.length = n := by rw [h1.length_eq, List.length_range]
  refine ⟨fun i hi => List.mem_range.1 (h1.mem_iff.1 hi), hl, h2, ?_⟩
  rw [hl]
  have key : ∀ (l : List (Nat × Nat)) (a : Nat), Tiles a l n → ∀ r ∈ l, r.1 ≤ n ∧ r.2 ≤ n := by
    intro l
    induction l with
    | nil => simp
    | cons x l ih =>
      obtain ⟨x, y⟩ := x
      rintro a ⟨g1, g2, g3⟩ r hr
      have := tiles_le g3
      rcases List.mem_cons.1 hr with rfl | hr
      · exact ⟨by simp only; omega, this⟩
      · exact ih y g3 r hr
  exact key _ 0 h2

/-- The code for a space category with pointers does what `SpaceTag` does with points. -/
structure Matches {β : Type} (R : ReadTag α d β) (tag : SpaceTag α d β) (I : IterMetric α) (M : Metric α d) : Prop where
  pick : ∀ (q : Pt α d) b, R.pick I (q (tag.splitDim b)) b = tag.pick M q b
  containsPt : ∀ (mn mx x : Pt α d) (p p' p'' : Reader α), (∀ j : Fin d, p j = .ok (mn j)) →
    (∀ j : Fin d, p' j = .ok (mx j)) → (∀ j : Fin d, p'' j = .ok (x j)) →
    R.containsPt I p p' p'' = .ok (tag.containsPt M ⟨mn, mx⟩ x)
  containsBox : ∀ (mn mx : Pt α d) (x : Box α d) (p p' : Reader α), (∀ j : Fin d, p j = .ok (mn j)) →
    (∀ j : Fin d, p' j = .ok (mx j)) → R.containsBox I p p' x = .ok (tag.containsBox M ⟨mn, mx⟩ x)
  left : ∀ (mn mx : Pt α d) (p p' : Reader α) (b : β), (∀ j : Fin d, p j = .ok (mn j)) →
    (∀ j : Fin d, p' j = .ok (mx j)) → R.intersectsLeft p p' b = .ok (tag.intersectsLeft ⟨mn, mx⟩ b)
  right : ∀ (mn mx : Pt α d) (p p' : Reader α) (b : β), (∀ j : Fin d, p j = .ok (mn j)) →
    (∀ j : Fin d, p' j = .ok (mx j)) → R.intersectsRight p p' b = .ok (tag.intersectsRight ⟨mn, mx⟩ b)

theorem containsC_eq {mn mx x : Pt α d} {p p' p'' : Reader α} (h : ∀ j : Fin d, p j = .ok (mn j))
    (h' : ∀ j : Fin d, p' j = .ok (mx j)) (h'' : ∀ j : Fin d, p'' j = .ok (x j)) :
    containsC d p p' p'' = .ok ((Box.mk mn mx).containsPt x) := by
  unfold containsC Box.containsPt
  refine loopAll_range _ _ fun j => ?_
  simp only [h, h', h'', Outcome.bind_ok, orElse]
  cases decide (mn j > x j) <;> rfl

theorem matches_euclidean {I : IterMetric α} (hI : Computes I M) :
    Matches (euclideanRead α d) (euclideanTag α d) I M where
  pick q b := by
    simp only [euclideanRead, euclideanTag, pickEuclideanC, pickEuclidean, hI.one]
  containsPt mn mx x p p' p'' h h' h'' := containsC_eq h h' h''
  containsBox mn mx x p p' h h' := by
    simp only [euclideanRead, euclideanTag, containsC_eq h h' (ptr_fin _), andAlso, Outcome.bind_ok, Box.containsBox]
    cases (Box.mk mn mx).containsPt x.min <;> rfl
  left mn mx p p' b h h' := by simp only [euclideanRead, euclideanTag, h, Outcome.bind_ok]
  right mn mx p p' b h h' := by simp only [euclideanRead, euclideanTag, h', Outcome.bind_ok]

theorem boxDistanceC_eq {I : IterMetric α} (hI : Computes I M) (a b v : α) (j : Fin d) :
    boxDistanceC I a b v j = boxDistance M a b v j := by
  unfold boxDistanceC boxDistance
  rw [hI.one, hI.space]
  cases M.space j <;> rfl

theorem matches_topological {I : IterMetric α} (hI : Computes I M) :
    Matches (topologicalRead α d) (topologicalTag α d) I M where
  pick q b := by
    simp only [topologicalRead, topologicalTag, pickTopologicalC, pickTopological, boxDistanceC_eq hI]
  containsPt mn mx x p p' p'' h h' h'' := by
    refine loopAll_range _ _ fun j => ?_
    simp only [h, h', h'', Outcome.bind_ok, hI.space]
    unfold containsAxis
    cases M.space j <;> rfl
  containsBox mn mx x p p' h h' := by
    refine loopAll_range _ _ fun j => ?_
    simp only [h, h', ptr_fin, Outcome.bind_ok, hI.space]
    unfold containsSide
    cases M.space j <;> rfl
  left mn mx p p' b h h' := by
    simp only [topologicalRead, topologicalTag, h, h', Outcome.bind_ok, orElse]
    cases decide (mn b.splitDim ≤ b.leftMax) <;> rfl
  right mn mx p p' b h h' := by
    simp only [topologicalRead, topologicalTag, h, h', Outcome.bind_ok, orElse]
    cases decide (mx b.splitDim ≥ b.rightMin) <;> rfl

section
variable {β : Type} {R : ReadTag α d β} {tag : SpaceTag α d β} {I : IterMetric α} {T : KdTree α d β}
  {space : Nat → Reader α}

theorem nearest_of_matches (hM : Matches R tag I M) (h : KdTree.make tag M N pts n o fuel = .ok T)
    {q : List α} (hq : d ≤ q.length) (hd : ∀ i < n, I.dist q (space i) = .ok (M.dist (firstOf q hq) (pts i)))
    {σ : Type} (V : Visitor α σ) (s : σ) :
    T.searchNearestC R I space q V s = .ok (T.searchNearest (firstOf q hq) V s) := by
  obtain ⟨h1, -, -, h4⟩ := reads_tree h
  obtain ⟨rfl, rfl, rfl, rfl, rfl, _⟩ := KdTree.make_ok h
  unfold KdTree.searchNearestC KdTree.searchNearest searchNearestRoot
  rw [searchNearestC_eq V (dist' := fun i => T.metric.dist (firstOf q hq) (T.pts i))
    (pick' := T.tag.pick T.metric (firstOf q hq)) (fun i hi => hd i (h1 i hi))
    (fun b => ⟨_, rd_firstOf hq _, hM.pick _ b⟩) T.data.root h4 0 (fun _ => 0, s), Outcome.bind_ok]

theorem box_of_matches (hM : Matches R tag I M) (h : KdTree.make tag M N pts n o fuel = .ok T)
    (hs : Holds space pts n) {mn mx : List α} (hn : d ≤ mn.length) (hx : d ≤ mx.length) (idxs : List Nat) :
    T.searchBoxC R I space mn mx idxs = .ok (T.searchBox (firstOf mn hn) (firstOf mx hx) idxs) := by
  obtain ⟨h1, h2, h3, -⟩ := reads_tree h
  obtain ⟨rfl, rfl, rfl, rfl, rfl, _⟩ := KdTree.make_ok h
  unfold KdTree.searchBoxC KdTree.searchBox
  have e := fun (st : Box α d × List Nat) => searchBoxC_eq (splitDim := T.tag.splitDim) (leftMax := T.tag.leftMax)
    (rightMin := T.tag.rightMin) (indices := T.data.indices)
    (fun i hi => hM.containsPt _ _ _ _ _ _ (rd_firstOf hn) (rd_firstOf hx) (hs i (h1 i hi)))
    (fun b => hM.containsBox _ _ b _ _ (rd_firstOf hn) (rd_firstOf hx))
    (fun b => hM.left _ _ _ _ b (rd_firstOf hn) (rd_firstOf hx))
    (fun b => hM.right _ _ _ _ b (rd_firstOf hn) (rd_firstOf hx)) T.data.root h3 h2.ge st
  rw [e, Outcome.bind_ok]

end

/-- C121: a nearest search with a query of the dimension of the tree reads only scalars of the query, coordinates of the
points and elements of `indices_`, and is the search of `Model/Search.lean`. -/
theorem c121_nearest_euclidean {T : KdTree α d (Branch1 α d)} {I : IterMetric α} (hI : Computes I M)
    (h : KdTree.make (euclideanTag α d) M N pts n o fuel = .ok T) {space : Nat → Reader α} (hs : Holds space pts n)
    {q : List α} (hq : q.length = d) {σ : Type} (V : Visitor α σ) (s : σ) :
    T.searchNearestC (euclideanRead α d) I space q V s = .ok (T.searchNearest (firstOf q hq.ge) V s) := by
  refine nearest_of_matches (matches_euclidean hI) h hq.ge (fun i hi => ?_) V s
  have := hI.dist (firstOf q hq.ge) (pts i) (space i) (hs i hi)
  rwa [ofFn_firstOf hq] at this

/-- C121: the same for topological spaces. -/
theorem c121_nearest_topological {T : KdTree α d (Branch2 α d)} {I : IterMetric α} (hI : Computes I M)
    (h : KdTree.make (topologicalTag α d) M N pts n o fuel = .ok T) {space : Nat → Reader α} (hs : Holds space pts n)
    {q : List α} (hq : q.length = d) {σ : Type} (V : Visitor α σ) (s : σ) :
    T.searchNearestC (topologicalRead α d) I space q V s = .ok (T.searchNearest (firstOf q hq.ge) V s) := by
  refine nearest_of_matches (matches_topological hI) h hq.ge (fun i hi => ?_) V s
  have := hI.dist (firstOf q hq.ge) (pts i) (space i) (hs i hi)
  rwa [ofFn_firstOf hq] at this

/-- C121: a box search reads only scalars of the corners, coordinates of the points and elements of `indices_`. Corners
may have more scalars than the points; the surplus is not looked at. -/
theorem c121_box_euclidean {T : KdTree α d (Branch1 α d)} {I : IterMetric α} (hI : Computes I M)
    (h : KdTree.make (euclideanTag α d) M N pts n o fuel = .ok T) {space : Nat → Reader α} (hs : Holds space pts n)
    {mn mx : List α} (hn : d ≤ mn.length) (hx : d ≤ mx.length) (idxs : List Nat) :
    T.searchBoxC (euclideanRead α d) I space mn mx idxs = .ok (T.searchBox (firstOf mn hn) (firstOf mx hx) idxs) :=
  box_of_matches (matches_euclidean hI) h hs hn hx idxs

/-- C121: the same for topological spaces. -/
theorem c121_box_topological {T : KdTree α d (Branch2 α d)} {I : IterMetric α} (hI : Computes I M)
    (h : KdTree.make (topologicalTag α d) M N pts n o fuel = .ok T) {space : Nat → Reader α} (hs : Holds space pts n)
    {mn mx : List α} (hn : d ≤ mn.length) (hx : d ≤ mx.length) (idxs : List Nat) :
    T.searchBoxC (topologicalRead α d) I space mn mx idxs = .ok (T.searchBox (firstOf mn hn) (firstOf mx hx) idxs) :=
  box_of_matches (matches_topological hI) h hs hn hx idxs

/-- C121: start bounds are read inside of their corners, if these have at least the dimension of the points; the surplus
is not looked at. -/
theorem c121_bounds (N : Num α) (n : Nat) (pts : Nat → Pt α d) {mn mx : List α} (hn : d ≤ mn.length) (hx : d ≤ mx.length) :
    boundsC N mn mx = .ok (boxFromBounds N pts n (.given (firstOf mn hn) (firstOf mx hx))) := by
  unfold boundsC
  rw [fitC_eq (firstOf mn hn) _ (rd_firstOf hn), Outcome.bind_ok, fitC_eq (firstOf mx hx) _ (rd_firstOf hx)]
  rfl

/-- Shorter ones compile as well, and are read behind their end. -/
theorem c121_bounds_false (N : Num α) {mn mx : List α} (h : mn.length < d ∨ mx.length < d) (k : Nat) :
    boundsCompile (some d) (some k) = true ∧ boundsC (d := d) N mn mx = .ub := by
  refine ⟨rfl, ?_⟩
  have ho : ∀ (l : List α) j, rd l j ≠ .oof := by intro l j; unfold rd; split <;> nofun
  unfold boundsC
  by_cases hn : mn.length < d
  · rw [fitC_ub (rd mn) (ho mn) (j := ⟨mn.length, hn⟩) (rd_of_le le_rfl)]
    rfl
  · have hx := h.resolve_left hn
    rw [fitC_eq (firstOf mn (Nat.le_of_not_lt hn)) _ (rd_firstOf _), Outcome.bind_ok,
      fitC_ub (rd mx) (ho mx) (j := ⟨mx.length, hx⟩) (rd_of_le le_rfl)]

omit [LinearOrder α] [Zero α] [One α] [Add α] [Sub α] [Neg α] [Mul α] in
/-- Which nearest searches compile: all but those with two known dimensions that differ. -/
theorem c121_compiles (a b : Option Nat) : nearestCompiles a b = false ↔ ∃ m k, a = some m ∧ b = some k ∧ m ≠ k := by
  cases a <;> cases b <;> simp [nearestCompiles]

/-- C121 (partial: dimensions known at compile time and nearest searches; the others are not checked, see below): if the
call compiles, the query has the dimension of the tree. -/
theorem c121_rejected_partial {m : Nat} (h : nearestCompiles (some d) (some m) = true) {q : List α}
    (hq : fitsType (some m) q) : q.length = d := by
  have : d = m := by simpa [nearestCompiles] using h
  rw [hq m rfl, this]

/-! ## Queries of another dimension -/

/-- A query that is too long, with one of the metrics that run over the query: every nearest search in a vector of arrays
reads behind an array (trees without empty leaves). The call compiles if the dimension of the query is a run time one. -/
theorem c121_long_false {T : KdTree α d (Branch1 α d)} {op : α → α → α → α} {a : α} {one : α → α} {sp : Nat → OneSpace}
    (h : KdTree.make (euclideanTag α d) M N pts n o fuel = .ok T) (hn : 0 < n) (hr : o.rule ≠ .midpoint)
    {q : List α} (hq : d < q.length) {σ : Type} (V : Visitor α σ) (s : σ) :
    nearestCompiles (some d) none = true ∧ fitsType none q ∧
      T.searchNearestC (euclideanRead α d) ⟨iterFold op a, one, sp⟩
        (vectorSpace ((List.range n).map fun i => List.ofFn (pts i))) q V s = .ub := by
  refine ⟨by simp [nearestCompiles], by simp [fitsType], ?_⟩
  obtain ⟨h1, -, -, -⟩ := reads_tree h
  obtain ⟨h5, -, -⟩ := c20_nonempty h hn hr
  unfold KdTree.searchNearestC
  rw [searchNearestC_ub V (fun i hi => ?_) (fun j => ⟨_, rd_firstOf hq.le j⟩) T.data.root h5 0 (fun _ => 0, s)]
  · rfl
  · have hi' := h1 i hi
    have hv : ∀ j, vectorSpace ((List.range n).map fun i => List.ofFn (pts i)) i j = rd (List.ofFn (pts i)) j := by
      intro j
      unfold vectorSpace
      rw [rd_of_lt (by simpa using hi'), Outcome.bind_ok, List.getElem_map, List.getElem_range]
    refine iterFold_ub op q _ (fun j => ?_) a hq ?_
    · rw [hv]; unfold rd; split <;> nofun
    · rw [hv, rd_of_le (by simp)]

/-- A query that is too short and a root that splits along an axis that the query does not have: the first thing the
search does is a read behind the query. -/
theorem c121_short_false {β : Type} {R : ReadTag α d β} {T : KdTree α d β} {I : IterMetric α} {space : Nat → Reader α}
    {b : β} {l r : Tree β} (hb : T.data.root = .branch b l r) {q : List α} (hq : q.length ≤ T.tag.splitDim b) {σ : Type}
    (V : Visitor α σ) (s : σ) : T.searchNearestC R I space q V s = .ub := by
  unfold KdTree.searchNearestC
  rw [hb, searchNearestC, rd_of_le hq]
  rfl

/-- A query that is too short and a tree that is one leaf: nothing is read outside, and the search is answered as if the
points had as many coordinates as the query. -/
theorem c121_leaf_false {T : KdTree α d (Branch1 α d)} (h : KdTree.make (euclideanTag α d) M N pts n o fuel = .ok T)
    (hroot : T.data.root = .leaf 0 n) {space : Nat → Reader α} (hs : Holds space pts n) {q : List α} (hq : q.length < d)
    (op : α → α → α → α) (a : α) (one : α → α) (sp : Nat → OneSpace) {σ : Type} (V : Visitor α σ) (s : σ) :
    T.searchNearestC (euclideanRead α d) ⟨iterFold op a, one, sp⟩ space q V s =
      .ok (T.data.indices.foldl (fun s i => V.visit s i ((List.finRange q.length).foldl
        (fun acc j => op acc q[j] (pts i (j.castLE hq.le))) a)) s) := by
  obtain ⟨h1, h2, -, -⟩ := reads_tree h
  unfold KdTree.searchNearestC
  rw [hroot, searchNearestC, sliceC_ok (by omega) h2.ge, Outcome.bind_ok]
  have hsl : slice T.data.indices 0 n = T.data.indices := by
    unfold slice
    rw [List.drop_zero, Nat.sub_zero, ← h2, List.take_length]
  rw [hsl, visitAllC_eq V (dist' := fun i => (List.finRange q.length).foldl
        (fun acc j => op acc q[j] (pts i (j.castLE hq.le))) a) (fun i hi => ?_)]
  · rfl
  · have := iterFold_ofFn op (fun j : Fin q.length => q[j]) (fun j => pts i (j.castLE hq.le)) (space i)
      (fun j => hs i (h1 i hi) (j.castLE hq.le)) a
    rwa [show List.ofFn (fun j : Fin q.length => q[j]) = q from List.ofFn_getElem] at this

/-- `metric_se2_squared` does not look at the end of the query: a query that is too long is answered like its first three
scalars. -/
theorem c121_se2_false {N : Num α} {pts : Nat → Pt α 3} {o : BuildOpts α 3} {T : KdTree α 3 (Branch2 α 3)}
    (h : KdTree.make (topologicalTag α 3) (metricSE2Sq α) N pts n o fuel = .ok T) {space : Nat → Reader α}
    (hs : Holds space pts n) {q : List α} (hq : 3 ≤ q.length) {σ : Type} (V : Visitor α σ) (s : σ) :
    T.searchNearestC (topologicalRead α 3) (iterSE2Sq α) space q V s = .ok (T.searchNearest (firstOf q hq) V s) := by
  refine nearest_of_matches (matches_topological computes_se2) h hq (fun i hi => ?_) V s
  have h0 := hs i hi 0
  have h1 := hs i hi 1
  have h2 := hs i hi 2
  have h0' := rd_firstOf hq 0
  have h1' := rd_firstOf hq 1
  have h2' := rd_firstOf hq 2
  simp only [Fin.val_zero, Fin.val_one, Fin.val_two] at h0 h0' h1 h1' h2 h2'
  simp only [iterSE2Sq, h0, h0', h1, h1', h2, h2', Outcome.bind_ok]
  rfl

end

/-! ## Concrete cases -/

/-- Three points in the plane. -/
def readPts : Nat → Pt Int 2
  | 0 => ![0, 0]
  | 1 => ![9, 1]
  | _ => ![2, 8]

/-- The points as one array of scalars. -/
def readBuf : List Int := [0, 0, 9, 1, 2, 8]

/-- The tree with one point per leaf, a query of the right dimension: the nearest point, read in bounds. -/
example : ∃ T, KdTree.make (euclideanTag Int 2) (metricL2Sq Int 2) Ref.intNum readPts 3 (Ref.optsSliding Int 2) 10 =
    .ok T ∧ T.searchNearestC (euclideanRead Int 2) (iterL2Sq Int) (mapSpace readBuf 2) [1, 7] nnVisitor
      (nnInit Ref.intNum ⟨0, 0⟩) = .ok ⟨2, 2⟩ := by
  obtain ⟨T, h, hp⟩ := Outcome.exists_of_check
    (x := KdTree.make (euclideanTag Int 2) (metricL2Sq Int 2) Ref.intNum readPts 3 (Ref.optsSliding Int 2) 10)
    (p := fun T => decide (T.searchNearestC (euclideanRead Int 2) (iterL2Sq Int) (mapSpace readBuf 2) [1, 7] nnVisitor
      (nnInit Ref.intNum ⟨0, 0⟩) = .ok ⟨2, 2⟩)) (by decide +kernel)
  exact ⟨T, h, by simpa using hp⟩

/-- Run time dimensions are not compared: a query with three scalars on points in the plane, in one array of scalars. The
third scalar is compared with the first coordinate of the next point: for the query `(9, 1, 3)` the point `(9, 1)` is
reported at distance 1. A search that comes to the last point reads behind the array. -/
theorem c121_dynamic_false : nearestCompiles none none = true ∧
    ∃ T, KdTree.make (euclideanTag Int 2) (metricL2Sq Int 2) Ref.intNum readPts 3 (Ref.optsSliding Int 2) 10 = .ok T ∧
      T.searchNearestC (euclideanRead Int 2) (iterL2Sq Int) (mapSpace readBuf 2) [0, 0, 0] (radiusVisitor 82)
        [] = .ub ∧
      T.searchNearestC (euclideanRead Int 2) (iterL2Sq Int) (mapSpace readBuf 2) [9, 1, 3] nnVisitor
        (nnInit Ref.intNum ⟨0, 0⟩) = .ok ⟨1, 1⟩ := by
  refine ⟨rfl, ?_⟩
  obtain ⟨T, h, hp⟩ := Outcome.exists_of_check
    (x := KdTree.make (euclideanTag Int 2) (metricL2Sq Int 2) Ref.intNum readPts 3 (Ref.optsSliding Int 2) 10)
    (p := fun T => decide (T.searchNearestC (euclideanRead Int 2) (iterL2Sq Int) (mapSpace readBuf 2) [0, 0, 0]
      (radiusVisitor 82) [] = .ub) && decide (T.searchNearestC (euclideanRead Int 2) (iterL2Sq Int) (mapSpace readBuf 2)
        [9, 1, 3] nnVisitor (nnInit Ref.intNum ⟨0, 0⟩) = .ok ⟨1, 1⟩)) (by decide +kernel)
  rw [Bool.and_eq_true] at hp
  exact ⟨T, h, by simpa using hp.1, by simpa using hp.2⟩

/-- Box searches are not checked even if both dimensions are known at compile time: corners with one scalar on points in
the plane compile, and the search reads behind them. -/
theorem c121_box_false : boxCompiles (some 2) (some 1) = true ∧
    ∃ T, KdTree.make (euclideanTag Int 2) (metricL2Sq Int 2) Ref.intNum readPts 3 (Ref.optsSliding Int 2) 10 = .ok T ∧
      fitsType (some 1) ([0] : List Int) ∧ fitsType (some 1) ([5] : List Int) ∧
      T.searchBoxC (euclideanRead Int 2) (iterL2Sq Int) (mapSpace readBuf 2) [0] [5] [] = .ub := by
  refine ⟨rfl, ?_⟩
  obtain ⟨T, h, hp⟩ := Outcome.exists_of_check
    (x := KdTree.make (euclideanTag Int 2) (metricL2Sq Int 2) Ref.intNum readPts 3 (Ref.optsSliding Int 2) 10)
    (p := fun T => decide (T.searchBoxC (euclideanRead Int 2) (iterL2Sq Int) (mapSpace readBuf 2) [0] [5] [] = .ub))
    (by decide +kernel)
  exact ⟨T, h, by rintro _ ⟨⟩; rfl, by rintro _ ⟨⟩; rfl, by simpa using hp⟩

/-- A tree that is one leaf: a query with one scalar finds the point that is nearest along the first axis. -/
example : ∃ T, KdTree.make (euclideanTag Int 2) (metricL2Sq Int 2) Ref.intNum readPts 3
      { Ref.optsSliding Int 2 with stop := .maxLeafSize 12 } 10 = .ok T ∧
    T.searchNearestC (euclideanRead Int 2) (iterL2Sq Int) (mapSpace readBuf 2) [3] nnVisitor
      (nnInit Ref.intNum ⟨0, 0⟩) = .ok ⟨2, 1⟩ := by
  obtain ⟨T, h, hp⟩ := Outcome.exists_of_check
    (x := KdTree.make (euclideanTag Int 2) (metricL2Sq Int 2) Ref.intNum readPts 3
      { Ref.optsSliding Int 2 with stop := .maxLeafSize 12 } 10)
    (p := fun T => decide (T.searchNearestC (euclideanRead Int 2) (iterL2Sq Int) (mapSpace readBuf 2) [3] nnVisitor
      (nnInit Ref.intNum ⟨0, 0⟩) = .ok ⟨2, 1⟩)) (by decide +kernel)
  exact ⟨T, h, by simpa using hp⟩

end Pico.Props
