import Verif.Proof.Walk
import Verif.Props.TreeObj
import Verif.Props.Reads
import Verif.Props.Nearest
import Verif.Props.Box

/-!
# C129: searches, `leaf_ranges` and `save` through the pointers of the nodes

For every program that builds, loads, moves and destroys trees (`Reach`, see C128), and every object that holds a tree.
The first argument `fuel` of the functions bounds the depth of the recursion.
-/

set_option linter.unusedSectionVars false

namespace Pico.Props

open Pico Spec

section
variable {α : Type} [LinearOrder α] [Zero α] [One α] [Add α] [Sub α] [Neg α] [Mul α] {d : Nat} {β S : Type}
variable {B : Malloc} {fails : Nat → Nat → Bool} {cs : Nat} {dyn : Bool} {left : S → S} {P : Platform α}
  {branch : Codec β} {w : World α d β S} {st : Nat → Has α d β S} {lost : List Nat} {fuel : Nat}

/-- An object that holds a tree: its vectors are allocated, and its nodes in memory are the tree. -/
theorem walk_holds (hc : 0 < cs) (h : Reach B fails cs dyn left P branch w st lost) {a : Nat} {D : TreeData α d β}
    {sp : S} (ha : st a = .holds D sp) :
    ∃ o f, w.obj a = .ok o ∧ Repr w.mem o.root D.root f ∧ o.space = sp ∧
      w.vector o.indicesMem o.indices = .ok D.indices ∧ w.boxOf o = .ok D.rootBox := by
  obtain ⟨O, i⟩ := Reach.inv hc h
  have hold : ∀ x ∈ O a, x ∈ w.heap.live := fun x hx => (i.live x).2 (.inr ⟨a, hx⟩)
  have g := i.good a
  rw [ha] at g
  obtain ⟨o, L, f, ho, hO, -, hr, -, hq, h1, h2, h3⟩ := g
  rw [hO] at hold
  have hv1 : ∀ x ∈ o.indicesMem.toList, x ∈ w.heap.live := fun x hx =>
    hold x (List.mem_append_right _ (List.mem_append_right _ hx))
  have hv2 : ∀ x ∈ o.boxMem.toList, x ∈ w.heap.live := fun x hx =>
    hold x (List.mem_append_right _ (List.mem_append_left _ hx))
  refine ⟨o, f, by simp [World.obj, ho], ?_, h3, by rw [World.vector, if_pos hv1, h1], ?_⟩
  · exact hr.congr fun q hqf => if_pos (hold _ (List.mem_append_left _ (hq q hqf).1))
  · rw [World.boxOf, World.vector, if_pos hv2, h2]
    rfl

theorem boxOf_cases (w : World α d β S) (o : TreeObj α d S) : (∃ b, w.boxOf o = .ok b) ∨ w.boxOf o = .ub := by
  unfold World.boxOf World.vector
  split
  · cases o.box with
    | none => exact .inr rfl
    | some b => exact .inl ⟨b, rfl⟩
  · exact .inr rfl

/-! ## The functions on pointers are the functions on trees -/

/-- C129: a nearest search from node to node is the search of `Model/Reads.lean` on the tree, also where the latter is
undefined (a tree that was loaded from any stream, a query that is too short); it calls itself no deeper than the tree
is high. -/
theorem c129_nearest (hc : 0 < cs) (h : Reach B fails cs dyn left P branch w st lost) {a : Nat} {T : KdTree α d β}
    {sp : S} (ha : st a = .holds T.data sp) (hf : height T.data.root < fuel) (R : ReadTag α d β) (I : IterMetric α)
    (space : S → Nat → Reader α) (q : List α) {σ : Type} (V : Visitor α σ) (s : σ) :
    w.searchNearest fuel a T.tag R I space q V s = T.searchNearestC R I (space sp) q V s := by
  obtain ⟨o, f, h1, h2, h3, h4, -⟩ := walk_holds hc h ha
  simp only [World.searchNearest, h1, h4, Outcome.bind_ok, searchNearestP_eq h2 hf, h3, KdTree.searchNearestC]

/-- C129: the same for box searches. -/
theorem c129_box (hc : 0 < cs) (h : Reach B fails cs dyn left P branch w st lost) {a : Nat} {T : KdTree α d β}
    {sp : S} (ha : st a = .holds T.data sp) (hf : height T.data.root < fuel) (R : ReadTag α d β) (I : IterMetric α)
    (space : S → Nat → Reader α) (mn mx : List α) (idxs : List Nat) :
    w.searchBox fuel a T.tag R I space mn mx idxs = T.searchBoxC R I (space sp) mn mx idxs := by
  obtain ⟨o, f, h1, h2, h3, h4, h5⟩ := walk_holds hc h ha
  simp only [World.searchBox, h1, h4, h5, Outcome.bind_ok, searchBoxP_eq h2 hf, h3, KdTree.searchBoxC]

/-- C129: saving writes the bytes of the tree. -/
theorem c129_save (hc : 0 < cs) (h : Reach B fails cs dyn left P branch w st lost) {a : Nat} {D : TreeData α d β}
    {sp : S} (ha : st a = .holds D sp) (hf : height D.root < fuel) (pad : Nat → Byte) (P' : Platform α)
    (branch' : Codec β) (out : List Byte) :
    w.save fuel a pad P' branch' out = .ok (saveData pad P' branch' D out) := by
  obtain ⟨o, f, h1, h2, h3, h4, h5⟩ := walk_holds hc h ha
  simp only [World.save, h1, h4, h5, Outcome.bind_ok, writeNodeP_eq h2 hf]
  rfl

/-- C129 (partial: no leaf is empty, see below): `leaf_ranges` gives the ranges of the leaves from left to right. -/
theorem c129_leaf_ranges_partial (hc : 0 < cs) (h : Reach B fails cs dyn left P branch w st lost) {a : Nat}
    {D : TreeData α d β} {sp : S} (ha : st a = .holds D sp) (hf : height D.root < fuel)
    (hr : ∀ r ∈ ranges D.root, r.1 ≠ r.2 ∧ r.1 ≤ D.indices.length ∧ r.2 ≤ D.indices.length) :
    w.leafRanges fuel a = .ok (ranges D.root) := by
  obtain ⟨o, f, h1, h2, h3, h4, -⟩ := walk_holds hc h ha
  simp only [World.leafRanges, h1, h4, Outcome.bind_ok, insertLeafRangeP_eq h2 hf hr, List.nil_append]

/-- C129 is false for trees with an empty leaf: `leaf_ranges` dereferences a null pointer. -/
theorem c129_empty_leaf_false (hc : 0 < cs) (h : Reach B fails cs dyn left P branch w st lost) {a : Nat}
    {D : TreeData α d β} {sp : S} (ha : st a = .holds D sp) (hf : height D.root + 1 < fuel)
    (hr : ∃ r ∈ ranges D.root, r.1 = r.2) : w.leafRanges fuel a = .ub := by
  obtain ⟨o, f, h1, h2, h3, h4, -⟩ := walk_holds hc h ha
  simp only [World.leafRanges, h1, h4, Outcome.bind_ok, insertLeafRangeP_ub h2 hf hr]

/-- C129 for any memory, however it came about: if a traversal from `p` sees a tree (`NodeHeap.tree`, C55), the search
from `p` is the search of the tree. -/
theorem c129_any_memory {mem : Ptr → Option (Node β)} {p : Ptr} {t : Tree β} {k : Nat}
    (h : NodeHeap.tree mem k p = some t) (hf : height t < fuel) {splitDim : β → Fin d} {σ : Type}
    (pick : α → β → Bool × α) (V : Visitor α σ) (q : Reader α) (dist : Nat → Outcome α) (indices : List Nat) (x : α)
    (s : Pt α d × σ) :
    searchNearestP mem splitDim pick V q dist indices fuel (some p) x s =
      searchNearestC splitDim pick V q dist indices t x s := by
  obtain ⟨f, hr⟩ := repr_of_tree h
  exact searchNearestP_eq hr hf x s

/-! ## Answers -/

section
variable {M : Metric α d} {N : Num α} {pts : Nat → Pt α d} {n : Nat} {o : BuildOpts α d} {k : Nat}

/-- C129: the answers of a tree that was built, wherever it was moved since: every read is inside of its object, and the
result is the one of `Model/Search.lean`. -/
theorem c129_nearest_euclidean {branch : Codec (Branch1 α d)} {w : World α d (Branch1 α d) S}
    {st : Nat → Has α d (Branch1 α d) S} (hc : 0 < cs) (h : Reach B fails cs dyn left P branch w st lost)
    {T : KdTree α d (Branch1 α d)} (hT : KdTree.make (euclideanTag α d) M N pts n o k = .ok T) {a : Nat} {sp : S}
    (ha : st a = .holds T.data sp) (hf : height T.data.root < fuel) {I : IterMetric α} (hI : Computes I M)
    {space : S → Nat → Reader α} (hs : Holds (space sp) pts n) {q : List α} (hq : q.length = d) {σ : Type}
    (V : Visitor α σ) (s : σ) :
    w.searchNearest fuel a (euclideanTag α d) (euclideanRead α d) I space q V s =
      .ok (T.searchNearest (firstOf q hq.ge) V s) := by
  rw [← c121_nearest_euclidean hI hT hs hq V s, ← c129_nearest hc h ha hf]
  rw [(KdTree.make_ok hT).1]

/-- C129: the same for topological spaces. -/
theorem c129_nearest_topological {branch : Codec (Branch2 α d)} {w : World α d (Branch2 α d) S}
    {st : Nat → Has α d (Branch2 α d) S} (hc : 0 < cs) (h : Reach B fails cs dyn left P branch w st lost)
    {T : KdTree α d (Branch2 α d)} (hT : KdTree.make (topologicalTag α d) M N pts n o k = .ok T) {a : Nat} {sp : S}
    (ha : st a = .holds T.data sp) (hf : height T.data.root < fuel) {I : IterMetric α} (hI : Computes I M)
    {space : S → Nat → Reader α} (hs : Holds (space sp) pts n) {q : List α} (hq : q.length = d) {σ : Type}
    (V : Visitor α σ) (s : σ) :
    w.searchNearest fuel a (topologicalTag α d) (topologicalRead α d) I space q V s =
      .ok (T.searchNearest (firstOf q hq.ge) V s) := by
  rw [← c121_nearest_topological hI hT hs hq V s, ← c129_nearest hc h ha hf]
  rw [(KdTree.make_ok hT).1]

/-- C129: a box search returns the indices of exactly the points in the box. -/
theorem c129_box_euclidean {branch : Codec (Branch1 α d)} {w : World α d (Branch1 α d) S}
    {st : Nat → Has α d (Branch1 α d) S} (hc : 0 < cs) (h : Reach B fails cs dyn left P branch w st lost)
    {T : KdTree α d (Branch1 α d)} (hT : KdTree.make (euclideanTag α d) M N pts n o k = .ok T)
    (hb : BoundsContain pts n o.bounds) {a : Nat} {sp : S} (ha : st a = .holds T.data sp)
    (hf : height T.data.root < fuel) {I : IterMetric α} (hI : Computes I M) {space : S → Nat → Reader α}
    (hs : Holds (space sp) pts n) {mn mx : List α} (hn : mn.length = d) (hx : mx.length = d) (idxs : List Nat) :
    ∃ out, w.searchBox fuel a (euclideanTag α d) (euclideanRead α d) I space mn mx idxs = .ok out ∧
      IsSelection n (fun i => InBox (firstOf mn hn.ge) (firstOf mx hx.ge) (pts i)) out := by
  refine ⟨_, ?_, c08_box hT hb (firstOf mn hn.ge) (firstOf mx hx.ge) idxs⟩
  rw [← c121_box_euclidean hI hT hs hn.ge hx.ge idxs, ← c129_box hc h ha hf]
  rw [(KdTree.make_ok hT).1]

/-- C129: the same for products of lines and circles. -/
theorem c129_box_topological {branch : Codec (Branch2 α d)} {w : World α d (Branch2 α d) S}
    {st : Nat → Has α d (Branch2 α d) S} (hc : 0 < cs) (h : Reach B fails cs dyn left P branch w st lost)
    {T : KdTree α d (Branch2 α d)} (hT : KdTree.make (topologicalTag α d) M N pts n o k = .ok T)
    (hb : BoundsContain pts n o.bounds) {a : Nat} {sp : S} (ha : st a = .holds T.data sp)
    (hf : height T.data.root < fuel) {I : IterMetric α} (hI : Computes I M) {space : S → Nat → Reader α}
    (hs : Holds (space sp) pts n) {mn mx : List α} (hn : mn.length = d) (hx : mx.length = d) (idxs : List Nat) :
    ∃ out, w.searchBox fuel a (topologicalTag α d) (topologicalRead α d) I space mn mx idxs = .ok out ∧
      IsSelection n (fun i => InTopBox (fun j => M.space j = .s1) (firstOf mn hn.ge) (firstOf mx hx.ge) (pts i)) out := by
  refine ⟨_, ?_, c09_box hT hb (firstOf mn hn.ge) (firstOf mx hx.ge) idxs⟩
  rw [← c121_box_topological hI hT hs hn.ge hx.ge idxs, ← c129_box hc h ha hf]
  rw [(KdTree.make_ok hT).1]

end

/-! ## Objects that hold no tree any more -/

/-- C129 is false for the source of a move: its root still points to the nodes, but it has no indices.  The first leaf a
nearest search comes to lies outside of them, whatever the query; so does the first leaf for `leaf_ranges`. -/
theorem c129_source_false (hc : 0 < cs) (h : Reach B fails cs dyn left P branch w st lost) {a b : Nat}
    {T : KdTree α d β} {sp : S} (ha : st a = .absent) (hb : st b = .holds T.data sp) (hf : height T.data.root < fuel)
    (hr : ∀ r ∈ ranges T.data.root, r.1 < r.2) :
    ∃ w', w.step B fails cs dyn left P branch (.moveConstruct a b) = .ok (w', false) ∧
      w'.leafRanges fuel b = .ub ∧ ∀ (R : ReadTag α d β) (I : IterMetric α) (space : S → Nat → Reader α) (q : List α), d ≤ q.length →
        ∀ {σ : Type} (V : Visitor α σ) (s : σ), w'.searchNearest fuel b T.tag R I space q V s = .ub := by
  obtain ⟨o, f, h1, h2, h3, -, -⟩ := walk_holds hc h hb
  obtain ⟨O, i⟩ := Reach.inv hc h
  have hn : w.trees a = none := by
    have := i.good a
    rw [ha] at this
    exact this.1
  have ho : w.trees b = some o := by
    unfold World.obj at h1
    cases hw : w.trees b with
    | none => simp [hw] at h1
    | some o' => simpa [hw] using h1
  have hab : b ≠ a := by
    rintro rfl
    rw [ha] at hb
    cases hb
  refine ⟨{ w with trees := Function.update (Function.update w.trees b (some (o.movedFrom dyn left))) a (some o) },
    by simp only [World.step, hn, ho], ?_, fun R I space q hq σ V s => ?_⟩
  · have hm : ∀ tr : Nat → Option (TreeObj α d S), World.mem { w with trees := tr } = w.mem := fun _ => rfl
    simp only [World.leafRanges, World.obj, Function.update_of_ne hab, Function.update_self, Outcome.bind_ok,
      World.vector, TreeObj.movedFrom, hm, Option.toList_none, List.not_mem_nil, false_implies,
      implies_true, if_true]
    exact insertLeafRangeP_nil h2 hf hr []
  have hm : ∀ tr : Nat → Option (TreeObj α d S), World.mem { w with trees := tr } = w.mem := fun _ => rfl
  simp only [World.searchNearest, World.obj, Function.update_of_ne hab, Function.update_self, Outcome.bind_ok,
    World.vector, TreeObj.movedFrom, hm, searchNearestP_eq h2 hf, Option.toList_none, List.not_mem_nil, false_implies,
    implies_true, if_true]
  rw [searchNearestC_ub V (by simp) (fun j => ⟨_, rd_firstOf hq j⟩) T.data.root hr]
  rfl

/-- C129 is false for the source of a move: when the new object is destroyed, all searches, `leaf_ranges` and `save` of
the source dereference a pointer to memory that was freed. -/
theorem c129_dangling_false (hc : 0 < cs) (h : Reach B fails cs dyn left P branch w st lost) {a b : Nat}
    {T : KdTree α d β} {sp : S} (ha : st a = .absent) (hb : st b = .holds T.data sp) :
    ∃ w', w.run B fails cs dyn left P branch [.moveConstruct a b, .destroy a] = .ok (w', [false, false]) ∧
      ∀ k, w'.leafRanges (k + 1) b = .ub ∧
        (∀ pad P' (branch' : Codec β) out, w'.save (k + 1) b pad P' branch' out = .ub) ∧
        ∀ (R : ReadTag α d β) (I : IterMetric α) (space : S → Nat → Reader α),
          (∀ q {σ : Type} (V : Visitor α σ) (s : σ), w'.searchNearest (k + 1) b T.tag R I space q V s = .ub) ∧
          ∀ mn mx idxs, w'.searchBox (k + 1) b T.tag R I space mn mx idxs = .ub := by
  obtain ⟨w', e, o, h1, h2, -⟩ := c128_dangling_false hc h a b T.data sp ha hb
  have ho : w'.obj b = .ok o := by simp [World.obj, h1]
  have hd : derefNode w'.mem (some o.root) = .ub := by simp [derefNode, World.mem, h2]
  refine ⟨w', e, fun k => ⟨?_, fun pad P' branch' out => ?_, fun R I space => ⟨fun q σ V s => ?_, fun mn mx idxs => ?_⟩⟩⟩
  · simp only [World.leafRanges, ho, Outcome.bind_ok]
    unfold World.vector
    split
    · simp only [Outcome.bind_ok, insertLeafRangeP, hd]
      rfl
    · rfl
  · simp only [World.save, ho, Outcome.bind_ok]
    unfold World.vector
    split
    · simp only [Outcome.bind_ok]
      rcases boxOf_cases w' o with ⟨b, hb⟩ | hb
      · simp only [hb, Outcome.bind_ok, writeNodeP, hd]
        rfl
      · rw [hb]
        rfl
    · rfl
  · simp only [World.searchNearest, ho, Outcome.bind_ok]
    unfold World.vector
    split
    · simp only [Outcome.bind_ok, searchNearestP, hd]
      rfl
    · rfl
  · simp only [World.searchBox, ho, Outcome.bind_ok]
    unfold World.vector
    split
    · simp only [Outcome.bind_ok]
      rcases boxOf_cases w' o with ⟨b, hb⟩ | hb
      · simp only [hb, Outcome.bind_ok, searchBoxP, hd]
        rfl
      · rw [hb]
        rfl
    · rfl

end

section
variable {α : Type} [CommRing α] [LinearOrder α] [IsStrictOrderedRing α] {d : Nat} {S : Type}
variable {B : Malloc} {fails : Nat → Nat → Bool} {cs : Nat} {dyn : Bool} {left : S → S} {P : Platform α}
  {lost : List Nat} {fuel : Nat} {M : Metric α d} {N : Num α} {pts : Nat → Pt α d} {n : Nat} {o : BuildOpts α d}
  {k : Nat}

/-- C129: `search_nn`, `search_knn` and `search_radius` of a tree that was built and moved any number of times return
the true neighbors of the query.  `size` is the number of points of the point set. -/
theorem c129_answers_euclidean {branch : Codec (Branch1 α d)} {w : World α d (Branch1 α d) S}
    {st : Nat → Has α d (Branch1 α d) S} (hc : 0 < cs) (h : Reach B fails cs dyn left P branch w st lost)
    {T : KdTree α d (Branch1 α d)} (hM : EuclideanAdditive M)
    (hT : KdTree.make (euclideanTag α d) M N pts n o k = .ok T) (hR : Representable N pts n o) (hn : 0 < n) {a : Nat}
    {sp : S} (ha : st a = .holds T.data sp) (hf : height T.data.root < fuel) {I : IterMetric α} (hI : Computes I M)
    {space : S → Nat → Reader α} (hs : Holds (space sp) pts n) {size : S → Nat} (hz : size sp = n) {q : List α}
    (hq : q.length = d) (hbig : ∀ i < n, M.dist (firstOf q hq.ge) (pts i) < N.big) :
    (∀ nn, ∃ out, w.searchNn N fuel a (euclideanTag α d) (euclideanRead α d) I space q nn = .ok out ∧
      IsNN n (fun i => M.dist (firstOf q hq.ge) (pts i)) out) ∧
    (∀ c prior, 0 < c → ∃ out,
      w.searchKnn N fuel a (euclideanTag α d) (euclideanRead α d) I space size q c prior = .ok out ∧
      IsKnn n c (fun i => M.dist (firstOf q hq.ge) (pts i)) out) ∧
    ∀ sorter r prior sort, ∃ out,
      w.searchRadius sorter fuel a (euclideanTag α d) (euclideanRead α d) I space q r prior sort = .ok out ∧
      IsRadius n (fun i => M.dist (firstOf q hq.ge) (pts i)) r out ∧
      (sort = true → out.Pairwise fun a b => a.distance ≤ b.distance) := by
  have e := fun {σ : Type} (V : Visitor α σ) s => c129_nearest_euclidean hc h hT ha hf hI hs hq V s
  obtain ⟨ob, f, h1, -, h3, -, -⟩ := walk_holds hc h ha
  obtain ⟨g1, g2, g3, g4, g5, -⟩ := KdTree.make_ok hT
  refine ⟨fun nn => ⟨_, ?_, c15_nn_euclidean hM hT hR hn _ hbig nn⟩, fun c prior hk => ?_,
    fun sorter r prior sort => ⟨_, ?_, c15_radius_euclidean hM hT hR hn _ sorter r prior sort⟩⟩
  · rw [World.searchNn, e, KdTree.searchNn, g3]
  · obtain ⟨out, h5, h6, -⟩ := c15_knn_euclidean hM hT hR hn _ hbig c hk prior
    refine ⟨out, ?_, h6⟩
    rw [← h5]
    simp only [World.searchKnn, h1, Outcome.bind_ok, h3, hz, KdTree.searchKnn, KdTree.searchKnnRange, g3, g5, e]
  · rw [World.searchRadius, e]
    rfl

/-- C129: the same for products of lines and circles. -/
theorem c129_answers_topological {branch : Codec (Branch2 α d)} {w : World α d (Branch2 α d) S}
    {st : Nat → Has α d (Branch2 α d) S} (hc : 0 < cs) (h : Reach B fails cs dyn left P branch w st lost)
    {T : KdTree α d (Branch2 α d)} (hM : TopologicalAdditive M)
    (hT : KdTree.make (topologicalTag α d) M N pts n o k = .ok T) (hR : Representable N pts n o) (hn : 0 < n) {a : Nat}
    {sp : S} (ha : st a = .holds T.data sp) (hf : height T.data.root < fuel) {I : IterMetric α} (hI : Computes I M)
    {space : S → Nat → Reader α} (hs : Holds (space sp) pts n) {size : S → Nat} (hz : size sp = n) {q : List α}
    (hq : q.length = d) (hcirc : CircleOk M.space pts n o (firstOf q hq.ge))
    (hbig : ∀ i < n, M.dist (firstOf q hq.ge) (pts i) < N.big) :
    (∀ nn, ∃ out, w.searchNn N fuel a (topologicalTag α d) (topologicalRead α d) I space q nn = .ok out ∧
      IsNN n (fun i => M.dist (firstOf q hq.ge) (pts i)) out) ∧
    (∀ c prior, 0 < c → ∃ out,
      w.searchKnn N fuel a (topologicalTag α d) (topologicalRead α d) I space size q c prior = .ok out ∧
      IsKnn n c (fun i => M.dist (firstOf q hq.ge) (pts i)) out) ∧
    ∀ sorter r prior sort, ∃ out,
      w.searchRadius sorter fuel a (topologicalTag α d) (topologicalRead α d) I space q r prior sort = .ok out ∧
      IsRadius n (fun i => M.dist (firstOf q hq.ge) (pts i)) r out ∧
      (sort = true → out.Pairwise fun a b => a.distance ≤ b.distance) := by
  have e := fun {σ : Type} (V : Visitor α σ) s => c129_nearest_topological hc h hT ha hf hI hs hq V s
  obtain ⟨ob, f, h1, -, h3, -, -⟩ := walk_holds hc h ha
  obtain ⟨g1, g2, g3, g4, g5, -⟩ := KdTree.make_ok hT
  refine ⟨fun nn => ⟨_, ?_, c15_nn_topological hM hT hR hn _ hcirc hbig nn⟩, fun c prior hk => ?_,
    fun sorter r prior sort => ⟨_, ?_, c15_radius_topological hM hT hR hn _ hcirc sorter r prior sort⟩⟩
  · rw [World.searchNn, e, KdTree.searchNn, g3]
  · obtain ⟨out, h5, h6, -⟩ := c15_knn_topological hM hT hR hn _ hcirc hbig c hk prior
    refine ⟨out, ?_, h6⟩
    rw [← h5]
    simp only [World.searchKnn, h1, Outcome.bind_ok, h3, hz, KdTree.searchKnn, KdTree.searchKnnRange, g3, g5, e]
  · rw [World.searchRadius, e]
    rfl

end

/-! ## Concrete cases -/

/-- The coordinates of the five points, one array. -/
def walkSpace (_ : String) : Nat → Reader ℤ :=
  mapSpace ((List.range 5).flatMap fun i => List.ofFn (Ref.pts5 i)) 2

/-- Two trees are built, the first one is moved, its old object gets the second one. -/
def walkRun : List (TreeOp ℤ 2 (Branch1 ℤ 2) String) :=
  [movesBuild 0 "p", movesBuild3 1 "q", .moveConstruct 2 0, .moveAssign 0 1, .destroy 1]

/-- A nearest neighbor of object `a`. -/
def walkNn (w : World ℤ 2 (Branch1 ℤ 2) String) (a : Nat) (q : List ℤ) : Outcome (Neighbor ℤ) :=
  w.searchNn Ref.intNum 5 a (euclideanTag ℤ 2) (euclideanRead ℤ 2) (iterL2Sq ℤ) walkSpace q ⟨0, 0⟩

/-- What the objects 0 (three points), 1 (destroyed) and 2 (five points) answer, read from node to node. -/
example : (movesRun true (fun _ _ => false) walkRun).check (fun r =>
      decide (walkNn r.1 2 [8, 3] = .ok ⟨4, 2⟩) && decide (walkNn r.1 0 [8, 3] = .ok ⟨1, 20⟩) &&
      decide (walkNn r.1 1 [8, 3] = .ub) &&
      decide (r.1.searchKnn Ref.intNum 5 2 (euclideanTag ℤ 2) (euclideanRead ℤ 2) (iterL2Sq ℤ) walkSpace (fun _ => 5)
        [8, 3] 2 [] = .ok [⟨4, 2⟩, ⟨1, 20⟩]) &&
      decide (r.1.searchBox 5 2 (euclideanTag ℤ 2) (euclideanRead ℤ 2) (iterL2Sq ℤ) walkSpace [2, 0] [9, 7] [77] =
        .ok [2, 3, 1, 4]) &&
      decide (r.1.leafRanges 5 2 = .ok [(0, 1), (1, 2), (2, 3), (3, 4), (4, 5)])) = true := by
  decide +kernel

/-- The source of a move, and a recursion that is not allowed to go as deep as the tree. -/
example : (movesRun false (fun _ _ => false) [movesBuild 0 "p", .moveConstruct 2 0]).check (fun r =>
      decide (walkNn r.1 0 [8, 3] = .ub) && decide (r.1.leafRanges 5 0 = .ub) &&
      decide (r.1.leafRanges 3 2 = .oof)) = true := by
  decide +kernel

/-- Midpoint splits make an empty leaf: the nearest neighbor is found, `leaf_ranges` is undefined. -/
example : (movesRun true (fun _ _ => false) [.build 0 "p" (KdTree.cfg (euclideanTag ℤ 2) Ref.intNum Ref.pts5
      (Ref.optsMidpoint ℤ 2)) 5 .fromSpace 10]).check (fun r =>
      decide (walkNn r.1 0 [8, 3] = .ok ⟨4, 2⟩) && decide (r.1.leafRanges 5 0 = .ub)) = true := by
  decide +kernel

/-- The hypotheses of the theorems are met: a tree that was built and moved, and another one beside it. -/
example : ∃ (w : World ℤ 2 (Branch1 ℤ 2) String) (st : Nat → Has ℤ 2 (Branch1 ℤ 2) String) (T : KdTree ℤ 2 (Branch1 ℤ 2)),
    Reach bump (fun _ _ => false) 2 true (fun _ => "") movesPlatform (movesPlatform.branch1 2) w st [] ∧
    KdTree.make (euclideanTag ℤ 2) (metricL2Sq ℤ 2) Ref.intNum Ref.pts5 5 (Ref.optsSliding ℤ 2) 10 = .ok T ∧
    st 2 = .holds T.data "p" ∧ height T.data.root < 5 ∧ Holds (walkSpace "p") Ref.pts5 5 ∧
    (∀ r ∈ ranges T.data.root, r.1 < r.2) ∧ ∃ D, st 1 = .holds D "q" := by
  obtain ⟨T, hT, hp⟩ := Outcome.exists_of_check
    (x := KdTree.make (euclideanTag ℤ 2) (metricL2Sq ℤ 2) Ref.intNum Ref.pts5 5 (Ref.optsSliding ℤ 2) 10)
    (p := fun T => decide (height T.data.root < 5 ∧ ∀ r ∈ ranges T.data.root, r.1 < r.2)) (by decide +kernel)
  obtain ⟨D1, h1, -⟩ := Outcome.exists_of_check (x := buildTree (KdTree.cfg (euclideanTag ℤ 2) Ref.intNum Ref.pts5
      (Ref.optsMedian ℤ 2)) 3 .fromSpace 10) (p := fun _ => true) (by decide +kernel)
  have h0 : buildTree (KdTree.cfg (euclideanTag ℤ 2) Ref.intNum Ref.pts5 (Ref.optsSliding ℤ 2)) 5 .fromSpace 10 =
      .ok T.data := by
    obtain ⟨_, _, _, _, _, h⟩ := KdTree.make_ok hT
    exact h
  have go : ∀ {w : World ℤ 2 (Branch1 ℤ 2) String} {st : Nat → Has ℤ 2 (Branch1 ℤ 2) String}
      (_ : Reach bump (fun _ _ => false) 2 true (fun _ => "") movesPlatform (movesPlatform.branch1 2) w st [])
      (op : TreeOp ℤ 2 (Branch1 ℤ 2) String), MayDo movesPlatform (movesPlatform.branch1 2) st op →
      losesChunks w op = [] → ∃ w', Reach bump (fun _ _ => false) 2 true (fun _ => "") movesPlatform
        (movesPlatform.branch1 2) w' (after movesPlatform (movesPlatform.branch1 2) st false op) [] := by
    intro w st h op ok hl
    obtain ⟨w', t, e, ht⟩ := c128_defined_partial (by decide) h op ok
    have : t = false := by
      cases t with
      | false => rfl
      | true =>
        obtain ⟨-, _, _, -, -, hf⟩ := ht rfl
        cases hf
    subst this
    have := Reach.step h ok e
    rw [hl] at this
    exact ⟨w', this⟩
  obtain ⟨w1, r1⟩ := go .start (movesBuild 0 "p") ⟨rfl, T.data, h0⟩ rfl
  simp only [movesBuild, after, h0] at r1
  obtain ⟨w2, r2⟩ := go r1 (movesBuild3 1 "q") ⟨by simp, D1, h1⟩ rfl
  simp only [movesBuild3, after, h1] at r2
  obtain ⟨w3, r3⟩ := go r2 (.moveConstruct 2 0) ⟨by simp, by simp⟩ rfl
  have hp' := of_decide_eq_true hp
  refine ⟨w3, _, T, r3, hT, ?_, hp'.1, holds_map Ref.pts5 5, hp'.2, D1, ?_⟩ <;> simp [after]

end Pico.Props
