import Verif.Proof.Similar
import Verif.Props.Box
import Verif.Props.Looked
import Verif.Props.Forest
import Verif.Ref

/-!
# C106: moving and scaling a point set

All points and the query are multiplied by a positive factor `s` and moved by a vector `t`
(`Pt.similar s t x = fun j => s * x j + t j`).  The tree is the same one on moved boxes, and every search reads the same
points in the same order and returns the same points; only the distances are multiplied.
-/

namespace Pico

section
variable {α : Type} [CommRing α] [LinearOrder α] [IsStrictOrderedRing α] {d : Nat} {β : Type}

/-- The options of the construction with moved bounds. -/
def BuildOpts.similar (s : α) (t : Pt α d) (o : BuildOpts α d) : BuildOpts α d :=
  { o with bounds := o.bounds.similar s t }

/-- A tree over moved points: the same indices and leaves, the same split axes, moved boxes and borders. -/
def KdTree.similar (s : α) (t : Pt α d) (f : β → β) (T : KdTree α d β) : KdTree α d β :=
  { T with
    pts := fun i => Pt.similar s t (T.pts i)
    data := ⟨T.data.indices, T.data.rootBox.similar s t, T.data.root.map f⟩ }

/-- What the searches have to respect of the space: comparisons with borders, and offsets multiplied by `c`. -/
structure TagSimilar (tag : SpaceTag α d β) (M : Metric α d) (s c : α) (t : Pt α d) (f : β → β) : Prop where
  set : ∀ bL bR dim, tag.setBranch (bL.similar s t) (bR.similar s t) dim = f (tag.setBranch bL bR dim)
  dim : ∀ b, tag.splitDim (f b) = tag.splitDim b
  left : ∀ b, tag.leftMax (f b) = s * tag.leftMax b + t (tag.splitDim b)
  right : ∀ b, tag.rightMin (f b) = s * tag.rightMin b + t (tag.splitDim b)
  pick : ∀ q b, tag.pick M (Pt.similar s t q) (f b) = ((tag.pick M q b).1, c * (tag.pick M q b).2)
  pt : ∀ q x, tag.containsPt M (q.similar s t) (Pt.similar s t x) = tag.containsPt M q x
  box : ∀ q x, tag.containsBox M (q.similar s t) (x.similar s t) = tag.containsBox M q x
  il : ∀ q b, tag.intersectsLeft (q.similar s t) (f b) = tag.intersectsLeft q b
  ir : ∀ q b, tag.intersectsRight (q.similar s t) (f b) = tag.intersectsRight q b

theorem tagSimilar_euclidean {M : Metric α d} {s c : α} (hs : 0 < s) (t : Pt α d)
    (hone : ∀ x, M.one (s * x) = c * M.one x) :
    TagSimilar (euclideanTag α d) M s c t (Branch1.similar s t) where
  set _ _ _ := rfl
  dim _ := rfl
  left _ := rfl
  right _ := rfl
  pick q b := by
    simp only [euclideanTag, pickEuclidean, Branch1.similar, Pt.similar, gt_iff_lt]
    have h1 : s * b.leftMax + t b.splitDim + (s * b.rightMin + t b.splitDim) - (s * q b.splitDim + t b.splitDim) -
        (s * q b.splitDim + t b.splitDim) = s * (b.leftMax + b.rightMin - q b.splitDim - q b.splitDim) := by ring
    have h2 : ∀ x, s * x + t b.splitDim - (s * q b.splitDim + t b.splitDim) = s * (x - q b.splitDim) := by
      intro x; ring
    simp only [h1, h2, hone, mul_pos_iff_of_pos_left hs]
    split_ifs <;> rfl
  pt q x := by
    simp only [euclideanTag, Box.containsPt, Box.similar, Pt.similar, similar_lt hs t, gt_iff_lt]
  box q x := by
    simp only [euclideanTag, Box.containsBox, Box.containsPt, Box.similar, Pt.similar, similar_lt hs t,
      gt_iff_lt]
  il q b := by
    simp only [euclideanTag, Box.similar, Branch1.similar, Pt.similar, similar_le hs t]
  ir q b := by
    simp only [euclideanTag, Box.similar, Branch1.similar, Pt.similar, similar_le hs t, ge_iff_le]

theorem tagSimilar_topological (M : Metric α d) (t : Pt α d) (ht : ∀ j, M.space j = .s1 → t j = 0) :
    TagSimilar (topologicalTag α d) M 1 1 t (Branch2.similar 1 t) where
  set _ _ _ := rfl
  dim _ := rfl
  left _ := rfl
  right _ := rfl
  pick q b := by
    simp only [topologicalTag, pickTopological, Branch2.similar, Pt.similar, one_mul]
    have h : ∀ mn mx v, boxDistance M (mn + t b.splitDim) (mx + t b.splitDim) (v + t b.splitDim) b.splitDim =
        boxDistance M mn mx v b.splitDim := by
      intro mn mx v
      unfold boxDistance
      cases hsp : M.space b.splitDim with
      | r1 =>
        dsimp only
        unfold Segment.r1Distance
        simp only [add_lt_add_iff_right, gt_iff_lt, add_sub_add_right_eq_sub]
      | s1 => simp only [ht _ hsp, add_zero]
    simp only [h]
  pt q x := by
    simp only [topologicalTag, Box.topContainsPt, Box.similar, Pt.similar, one_mul]
    congr 1
    funext j
    cases hsp : M.space j with
    | r1 => simp only [Segment.r1Contains, add_le_add_iff_right]
    | s1 => simp only [ht _ hsp, add_zero]
  box q x := by
    simp only [topologicalTag, Box.topContainsBox, Box.similar, Pt.similar, one_mul]
    congr 1
    funext j
    cases hsp : M.space j with
    | r1 => simp only [Segment.r1ContainsSeg, add_le_add_iff_right]
    | s1 => simp only [ht _ hsp, add_zero]
  il q b := by
    simp only [topologicalTag, Box.similar, Branch2.similar, Pt.similar, one_mul, add_le_add_iff_right, ge_iff_le]
  ir q b := by
    simp only [topologicalTag, Box.similar, Branch2.similar, Pt.similar, one_mul, add_le_add_iff_right, ge_iff_le]

end

namespace Props

section
variable {α : Type} [CommRing α] [LinearOrder α] [IsStrictOrderedRing α] {d : Nat} {β : Type}

/-- The conditions on numbers, points and bounds under which a point set may be moved: nothing leaves the range of the
scalar type, the points are within the bounds, and halving a length does not depend on the unit of length (true for
exact arithmetic, and for every arithmetic if `s = 1`, for instance for the truncating one of `int`). -/
structure Movable (N : Num α) (pts : Nat → Pt α d) (n : Nat) (o : BuildOpts α d) (s : α) (t : Pt α d) : Prop where
  pos : 0 < s
  low : N.low < 0
  half : HalfOk N s
  stop : ∀ m, o.stop = .maxLeafSize m → 1 ≤ m ∧ m < 2 ^ (o.indexBits - 1)
  points : ∀ i < n, ∀ j, InRange N (pts i j)
  points' : ∀ i < n, ∀ j, InRange N (Pt.similar s t (pts i) j)
  bounds : o.bounds.InRange N
  bounds' : (o.bounds.similar s t).InRange N
  contain : BoundsContain pts n o.bounds

theorem Movable.representable {N : Num α} {pts : Nat → Pt α d} {n : Nat} {o : BuildOpts α d} {s : α} {t : Pt α d}
    (h : Movable N pts n o s t) (hN : N.low ≤ N.big) : Representable N pts n o where
  num := hN
  points := h.points
  bounds := h.bounds
  mid _ a b hab _ _ := by
    have := h.half.mul (b - a) (sub_nonneg.2 hab)
    constructor <;> linarith

theorem make_similar {tag : SpaceTag α d β} {M : Metric α d} {N : Num α} {pts : Nat → Pt α d} {n : Nat}
    {o : BuildOpts α d} {s : α} {t : Pt α d} {f : β → β} (h : Movable N pts n o s t) (hn : 0 < n)
    (hf : ∀ bL bR dim, tag.setBranch (bL.similar s t) (bR.similar s t) dim = f (tag.setBranch bL bR dim))
    (fuel : Nat) :
    KdTree.make tag M N (fun i => Pt.similar s t (pts i)) n (o.similar s t) fuel =
      (KdTree.make tag M N pts n o fuel).map (KdTree.similar s t f) := by
  unfold KdTree.make buildTree
  have hC : KdTree.cfg tag N (fun i => Pt.similar s t (pts i)) (o.similar s t) =
      (KdTree.cfg tag N pts o).similar s t := rfl
  have hbox := boxFromBounds_similar h.pos t hn h.points h.points' h.bounds h.bounds'
  have hcell : CellFit (KdTree.cfg tag N pts o) s t (List.range n) (boxFromBounds N pts n o.bounds) := by
    refine ⟨fun j => (boxFromBounds_cellOk hn h.points h.bounds j).1, ?_, ?_, ?_, ?_⟩
    · exact fun i hi => boundsContain_mem h.contain i (List.mem_range.1 hi)
    · exact fun i hi => h.points i (List.mem_range.1 hi)
    · exact fun i hi => h.points' i (List.mem_range.1 hi)
    · intro _ h
      rw [List.range_eq_nil] at h
      omega
  have hnode := createNode_similar h.pos t (C := KdTree.cfg tag N pts o) h.low h.half (stopOk_of h.stop) f hf fuel 0
    0 _ _ hcell
  have hN : ((KdTree.cfg tag N pts o).similar s t).N = N := rfl
  have hP : ((KdTree.cfg tag N pts o).similar s t).pts = fun i => Pt.similar s t (pts i) := rfl
  have hB : (o.similar s t).bounds = o.bounds.similar s t := rfl
  simp only [hC, hN, hP, hB, hbox]
  rw [hnode]
  have hN' : (KdTree.cfg tag N pts o).N = N := rfl
  have hP' : (KdTree.cfg tag N pts o).pts = pts := rfl
  rw [hN', hP']
  cases createNode (KdTree.cfg tag N pts o) fuel 0 0 (List.range n) (boxFromBounds N pts n o.bounds) <;> rfl

/-- Two searches that read the same points in the same order and return the same points, the distances of the second
multiplied by `c`. -/
structure SameSearch {α : Type} [LinearOrder α] [Zero α] [Add α] [Sub α] [Mul α] {d : Nat} {β : Type} (c : α)
    (T T' : KdTree α d β) (q q' : Pt α d) : Prop where
  nn : ∀ nn nn' : Neighbor α, T'.searchNn q' nn' = (T.searchNn q nn).scale c ∧
    T'.looked q' nnVisitor (nnInit T'.num nn') = T.looked q nnVisitor (nnInit T.num nn)
  knn : ∀ (k : Nat) (prior prior' : List (Neighbor α)), 0 < k →
    ∃ out, T.searchKnn q k prior = .ok out ∧ T'.searchKnn q' k prior' = .ok (out.map (Neighbor.scale c))
  knnReads : ∀ (buf buf' : List (Neighbor α)) (u u' : KnnState α), buf.length = buf'.length →
    knnInit T.num buf = .ok u → knnInit T'.num buf' = .ok u' →
    T'.looked q' (knnVisitor T'.num) u' = T.looked q (knnVisitor T.num) u
  radius : ∀ (sorter : StdSort (Neighbor α)) (r : α) (prior prior' : List (Neighbor α)),
    T'.searchRadius sorter q' (c * r) prior' false = (T.searchRadius sorter q r prior false).map (Neighbor.scale c) ∧
    T'.looked q' (radiusVisitor (c * r)) [] = T.looked q (radiusVisitor r) []

/-- The same for the approximate searches. -/
structure SameApprox {α : Type} [Field α] [LinearOrder α] {d : Nat} {β : Type} (c : α) (T T' : KdTree α d β)
    (q q' : Pt α d) : Prop where
  nn : ∀ (e : α) (nn nn' : Neighbor α), 1 ≤ e → T'.searchNnApprox q' e nn' = (T.searchNnApprox q e nn).scale c ∧
    T'.looked q' (approxNnVisitor e) (nnInit T'.num nn') = T.looked q (approxNnVisitor e) (nnInit T.num nn)
  knn : ∀ (e : α) (k : Nat) (prior prior' : List (Neighbor α)), 1 ≤ e → 0 < k →
    ∃ out, T.searchKnnApprox q k e prior = .ok out ∧
      T'.searchKnnApprox q' k e prior' = .ok (out.map (Neighbor.scale c))
  radius : ∀ (sorter : StdSort (Neighbor α)) (r e : α) (prior prior' : List (Neighbor α)),
    T'.searchRadiusApprox sorter q' (c * r) e prior' false =
      (T.searchRadiusApprox sorter q r e prior false).map (Neighbor.scale c)

section
variable {T : KdTree α d β} {s c : α} {t : Pt α d} {f : β → β} {q : Pt α d} {term : Fin d → Nat → α}

theorem search_similar {σ σ' : Type} (hf : TagSimilar T.tag T.metric s c t f) (hG : GuardAt T q term)
    (V : Visitor α σ) (W : Visitor α σ') (R : σ → σ' → Prop)
    (hvisit : ∀ u w, ∀ i < T.n, R u w → R (V.visit u i (T.metric.dist q (T.pts i)))
      (W.visit w i (T.metric.dist (Pt.similar s t q) (Pt.similar s t (T.pts i)))))
    (hmax : ∀ u w, ∀ i < T.n, ∀ D, R u w → D ≤ T.metric.dist q (T.pts i) → (D ≤ V.max u ↔ c * D ≤ W.max w))
    (u : σ) (w : σ') (hR : R u w) :
    R (T.searchNearest q V u) ((T.similar s t f).searchNearest (Pt.similar s t q) W w) ∧
      (T.similar s t f).looked (Pt.similar s t q) W w = T.looked q V u := by
  have hlt : ∀ i ∈ T.data.root.elems T.data.indices, i < T.n := by
    intro i hi
    rw [hG.elems] at hi
    exact List.mem_range.1 (hG.perm.subset hi)
  obtain ⟨u', w', ⟨h1, h2⟩, h3, h4⟩ := searchNearest_similar T.tag.splitDim (T.tag.pick T.metric q)
    (T.tag.pick T.metric (Pt.similar s t q)) (recording V) (recording W) (fun i => T.metric.dist q (T.pts i))
    (fun i => T.metric.dist (Pt.similar s t q) (Pt.similar s t (T.pts i))) T.data.indices f c hf.dim (hf.pick q)
    (· < T.n) (fun x y => R x.1 y.1 ∧ y.2 = x.2)
    (fun x y i hi h => ⟨hvisit x.1 y.1 i hi h.1, by simp only [recording, h.2]⟩)
    (fun x y i D hi h hD => hmax x.1 y.1 i hi D h.1 hD) term hG.dist_eq T.data.root hlt hG.guard 0 (fun _ => 0)
    (by simp) (fun i hi j => hG.nonneg i (hlt i hi) j) (u, []) (w, []) ⟨hR, rfl⟩
  have e1 : T.searchNearest q (recording V) (u, []) = u' := by
    unfold KdTree.searchNearest searchNearestRoot
    rw [h3]
  have e2 : (T.similar s t f).searchNearest (Pt.similar s t q) (recording W) (w, []) = w' := by
    simp only [mul_zero] at h4
    unfold KdTree.searchNearest searchNearestRoot
    change (searchNearest T.tag.splitDim (T.tag.pick T.metric (Pt.similar s t q)) (recording W)
      (fun i => T.metric.dist (Pt.similar s t q) (Pt.similar s t (T.pts i))) T.data.indices (T.data.root.map f) 0
      (fun _ => 0, (w, []))).2 = w'
    rw [h4]
  refine ⟨?_, ?_⟩
  · rw [← T.searchNearest_recording q V u, ← (T.similar s t f).searchNearest_recording, e1, e2]
    exact h1
  · unfold KdTree.looked
    rw [e1, e2, h2]

/-- The common part of the k nearest neighbor searches; `g` is applied to the distances before they are stored. -/
theorem knn_similar (hc : 0 < c) (hf : TagSimilar T.tag T.metric s c t f) (hG : GuardAt T q term)
    (hdist : ∀ i < T.n, T.metric.dist (Pt.similar s t q) (Pt.similar s t (T.pts i)) = c * T.metric.dist q (T.pts i))
    (hbig : ∀ i < T.n, T.metric.dist q (T.pts i) < T.num.big)
    (hbig' : ∀ i < T.n, c * T.metric.dist q (T.pts i) < T.num.big) (g : α → α)
    (hg : ∀ i < T.n, g (T.metric.dist q (T.pts i)) < T.num.big ∧ c * g (T.metric.dist q (T.pts i)) < T.num.big)
    (hgc : ∀ x, g (c * x) = c * g x) (buf buf' : List (Neighbor α)) (u u' : KnnState α)
    (hlen : buf.length = buf'.length) (hu : knnInit T.num buf = .ok u) (hu' : knnInit T.num buf' = .ok u') :
    ((∀ a ∈ (T.searchNearest q ⟨fun s i x => knnVisit T.num s i (g x), knnMax T.num⟩ u).buf,
        a.distance < T.num.big) →
      ((T.similar s t f).searchNearest (Pt.similar s t q)
        ⟨fun s i x => knnVisit T.num s i (g x), knnMax T.num⟩ u').buf =
      (T.searchNearest q ⟨fun s i x => knnVisit T.num s i (g x), knnMax T.num⟩ u).buf.map (Neighbor.scale c)) ∧
    (T.similar s t f).looked (Pt.similar s t q) ⟨fun s i x => knnVisit T.num s i (g x), knnMax T.num⟩ u' =
      T.looked q ⟨fun s i x => knnVisit T.num s i (g x), knnMax T.num⟩ u := by
  have hb : 0 < buf.length := by
    cases buf with
    | nil => simp [knnInit] at hu
    | cons => simp
  obtain ⟨init, i1, i2, i3, -⟩ := knnInit_inv T.num buf hb
  obtain ⟨init', j1, j2, j3, -⟩ := knnInit_inv T.num buf' (hlen ▸ hb)
  rw [hu] at i1
  rw [hu'] at j1
  cases i1
  cases j1
  have hll : init.length = init'.length := by omega
  obtain ⟨h1, h2⟩ := search_similar hf hG ⟨fun s i x => knnVisit T.num s i (g x), knnMax T.num⟩
    ⟨fun s i x => knnVisit T.num s i (g x), knnMax T.num⟩ (KnnSimilar c init init')
    (fun x y i hi h => by
      rw [hdist i hi]
      dsimp only
      rw [hgc]
      exact knnSimilar_visit (increasing_of_pos hc) hll i3 j3 h i (hg i hi).1 (hg i hi).2)
    (fun x y i hi D h hD => knnSimilar_max (increasing_of_pos hc) hll i3 j3 h hD (hbig i hi) (hbig' i hi)) ⟨init, 0⟩ ⟨init', 0⟩
    ⟨[], by simp, .nil, by simp, by simp⟩
  refine ⟨fun hsmall => ?_, h2⟩
  obtain ⟨L, l1, hs, e1, e2⟩ := h1
  rw [e1] at hsmall
  rw [e1, e2]
  obtain ⟨x, hx, hxb⟩ := i3
  rcases lt_or_eq_of_le l1 with hlt | heq
  · exfalso
    have hlast : (init.drop L.length).getLast? = some x := by
      rw [List.getLast?_drop, if_neg (by omega), hx]
    have hmem : x ∈ L ++ init.drop L.length := List.mem_append_right _ (List.mem_of_getLast? hlast)
    exact absurd (hsmall x hmem) (by rw [hxb]; exact lt_irrefl _)
  · have d1 : init.drop L.length = [] := List.drop_eq_nil_of_le heq.ge
    have d2 : init'.drop L.length = [] := List.drop_eq_nil_of_le (by omega)
    simp only [d1, d2, List.append_nil]

theorem sameSearch (hc : 0 < c) (hf : TagSimilar T.tag T.metric s c t f) (hG : GuardAt T q term) (hn : 0 < T.n)
    (hdist : ∀ i < T.n, T.metric.dist (Pt.similar s t q) (Pt.similar s t (T.pts i)) = c * T.metric.dist q (T.pts i))
    (hbig : ∀ i < T.n, T.metric.dist q (T.pts i) < T.num.big)
    (hbig' : ∀ i < T.n, c * T.metric.dist q (T.pts i) < T.num.big) :
    SameSearch c T (T.similar s t f) q (Pt.similar s t q) := by
  have hE := hG.exactAt
  have hknn := knn_similar hc hf hG hdist hbig hbig' id (fun i hi => ⟨hbig i hi, hbig' i hi⟩) (fun _ => rfl)
  have hid : (⟨fun s i x => knnVisit T.num s i (id x), knnMax T.num⟩ : Visitor α (KnnState α)) = knnVisitor T.num := rfl
  rw [hid] at hknn
  refine ⟨?_, ?_, ?_, ?_⟩
  · intro nn nn'
    obtain ⟨h1, h2⟩ := search_similar hf hG nnVisitor nnVisitor (NnSimilar T.num c)
      (fun u w i hi h => by rw [hdist i hi]; exact nnSimilar_visit (increasing_of_pos hc) h i (hbig i hi) (hbig' i hi))
      (fun u w i hi D h hD => nnSimilar_max (increasing_of_pos hc) h hD (hbig i hi) (hbig' i hi)) (nnInit T.num nn) (nnInit T.num nn')
      (Or.inl ⟨rfl, rfl⟩)
    refine ⟨?_, h2⟩
    rcases h1 with ⟨h1, -⟩ | h1
    · obtain ⟨k1, k2, -⟩ := hE.nn hn hbig nn
      have hb : (T.searchNn q nn).distance = T.num.big := h1
      rw [hb] at k2
      exact absurd (hbig _ k1) (by rw [← k2]; exact lt_irrefl _)
    · exact h1
  · intro k prior prior' hk
    obtain ⟨out, ho, hk1⟩ := hE.knn hn hbig k hk prior
    refine ⟨out, ho, ?_⟩
    unfold KdTree.searchKnn KdTree.searchKnnRange at ho ⊢
    change (knnInit T.num (KdTree.resize (min k T.n) prior')).bind _ = _
    obtain ⟨init, i1, i2, i3, -⟩ := knnInit_inv T.num (KdTree.resize (min k T.n) prior) (by rw [resize_length]; omega)
    obtain ⟨init', j1, j2, j3, -⟩ := knnInit_inv T.num (KdTree.resize (min k T.n) prior')
      (by rw [resize_length]; omega)
    have hsim := (hknn _ _ _ _ (by rw [resize_length, resize_length]) i1 j1).1
    rw [i1] at ho
    rw [j1]
    simp only [Outcome.bind, Outcome.ok.injEq] at ho ⊢
    rw [ho] at hsim
    refine hsim ?_
    intro x hx
    obtain ⟨rest, hp, -⟩ := hk1.rest
    have hmem := hp.subset (List.mem_append_left rest hx)
    rw [Spec.all, List.mem_map] at hmem
    obtain ⟨i, hi, rfl⟩ := hmem
    exact hbig i (List.mem_range.1 hi)
  · intro buf buf' u u' hlen hu hu'
    exact (hknn buf buf' u u' hlen hu hu').2
  · intro sorter r prior prior'
    exact search_similar hf hG (radiusVisitor r) (radiusVisitor (c * r))
      (fun u w => w = u.map (Neighbor.scale c))
      (fun u w i hi h => by
        subst h
        rw [hdist i hi]
        simp only [radiusVisitor, gt_iff_lt, mul_lt_mul_iff_right₀ hc]
        split_ifs
        · rw [List.map_append]; rfl
        · rfl)
      (fun u w i hi D h hD => by
        simp only [radiusVisitor, mul_le_mul_iff_right₀ hc]) [] [] rfl

end

theorem box_similar {T : KdTree α d β} {s c : α} {t : Pt α d} {f : β → β} (hf : TagSimilar T.tag T.metric s c t f)
    (mn mx : Pt α d) (idxs idxs' : List Nat) :
    (T.similar s t f).searchBox (Pt.similar s t mn) (Pt.similar s t mx) idxs' = T.searchBox mn mx idxs ∧
      (T.similar s t f).leafRanges = T.leafRanges := by
  refine ⟨?_, insertLeafRange_map f _ _⟩
  have := searchBox_similar s t T.tag.splitDim T.tag.leftMax T.tag.rightMin
    (fun i => T.tag.containsPt T.metric ⟨mn, mx⟩ (T.pts i))
    (fun i => T.tag.containsPt T.metric (Box.similar s t ⟨mn, mx⟩) (Pt.similar s t (T.pts i)))
    (T.tag.containsBox T.metric ⟨mn, mx⟩) (T.tag.containsBox T.metric (Box.similar s t ⟨mn, mx⟩))
    (T.tag.intersectsLeft ⟨mn, mx⟩) (T.tag.intersectsRight ⟨mn, mx⟩)
    (T.tag.intersectsLeft (Box.similar s t ⟨mn, mx⟩)) (T.tag.intersectsRight (Box.similar s t ⟨mn, mx⟩))
    T.data.indices f hf.dim hf.left hf.right (funext fun i => hf.pt _ _) (hf.box _) (hf.il _) (hf.ir _) T.data.root
    T.data.rootBox []
  have h2 := congrArg Prod.snd this
  exact h2

end

section Approx
variable {α : Type} [Field α] [LinearOrder α] [IsStrictOrderedRing α] {d : Nat} {β : Type}
  {T : KdTree α d β} {s c : α} {t : Pt α d} {f : β → β} {q : Pt α d} {term : Fin d → Nat → α}

theorem sameApprox (hc : 0 < c) (hf : TagSimilar T.tag T.metric s c t f) (hG : GuardAt T q term) (hn : 0 < T.n)
    (hdist : ∀ i < T.n, T.metric.dist (Pt.similar s t q) (Pt.similar s t (T.pts i)) = c * T.metric.dist q (T.pts i))
    (hbig : ∀ i < T.n, T.metric.dist q (T.pts i) < T.num.big)
    (hbig' : ∀ i < T.n, c * T.metric.dist q (T.pts i) < T.num.big) :
    SameApprox c T (T.similar s t f) q (Pt.similar s t q) := by
  have hE := hG.exactAt
  have hnn : ∀ i < T.n, 0 ≤ T.metric.dist q (T.pts i) := fun i hi => by
    rw [hG.dist_eq i hi]
    exact Finset.sum_nonneg fun j _ => hG.nonneg i hi j
  have happ : ∀ e : α, 1 ≤ e → ∀ i < T.n, T.metric.dist q (T.pts i) * (1 / e) < T.num.big ∧
      c * (T.metric.dist q (T.pts i) * (1 / e)) < T.num.big := by
    intro e he i hi
    have h1 : T.metric.dist q (T.pts i) * (1 / e) ≤ T.metric.dist q (T.pts i) :=
      scaled_le he (dist := fun i => T.metric.dist q (T.pts i)) (hnn i hi)
    exact ⟨h1.trans_lt (hbig i hi), (mul_le_mul_of_nonneg_left h1 hc.le).trans_lt (hbig' i hi)⟩
  refine ⟨?_, ?_, ?_⟩
  · intro e nn nn' he
    have he0 : 0 < e := one_pos.trans_le he
    obtain ⟨h1, h2⟩ := search_similar hf hG (approxNnVisitor e) (approxNnVisitor e) (NnSimilar T.num c)
      (fun u w i hi h => by
        rw [hdist i hi]
        have := nnSimilar_visit (increasing_of_pos hc) h i (happ e he i hi).1 (happ e he i hi).2
        rw [← mul_assoc] at this
        exact this)
      (fun u w i hi D h hD => nnSimilar_max (increasing_of_pos hc) h hD (hbig i hi) (hbig' i hi)) (nnInit T.num nn) (nnInit T.num nn')
      (Or.inl ⟨rfl, rfl⟩)
    refine ⟨?_, h2⟩
    rcases h1 with ⟨h1, -⟩ | h1
    · obtain ⟨i, k1, -, k2, -⟩ := hE.nnApprox hn e he0 hnn hbig (fun i hi => (happ e he i hi).1) nn
      have hb : (T.searchNnApprox q e nn).distance = T.num.big := h1
      rw [hb] at k2
      have := (happ e he i k1).1
      rw [← k2, mul_one_div, mul_div_assoc, div_self he0.ne', mul_one] at this
      exact absurd this (lt_irrefl _)
    · exact h1
  · intro e k prior prior' he hk
    have he0 : 0 < e := one_pos.trans_le he
    obtain ⟨out, ho, -, -, -, hgen, -⟩ := hE.knnApproxRange e he hnn hbig (KdTree.resize (min k T.n) prior)
      (by rw [resize_length]; omega) (by rw [resize_length]; omega)
    refine ⟨out, ho, ?_⟩
    unfold KdTree.searchKnnApproxRange at ho
    unfold KdTree.searchKnnApprox KdTree.searchKnnApproxRange
    change (knnInit T.num (KdTree.resize (min k T.n) prior')).bind _ = _
    obtain ⟨init, i1, i2, i3, -⟩ := knnInit_inv T.num (KdTree.resize (min k T.n) prior) (by rw [resize_length]; omega)
    obtain ⟨init', j1, j2, j3, -⟩ := knnInit_inv T.num (KdTree.resize (min k T.n) prior')
      (by rw [resize_length]; omega)
    have hsim := (knn_similar hc hf hG hdist hbig hbig' (fun x => x * (1 / e)) (happ e he) (fun x => mul_assoc _ _ _)
      _ _ _ _ (by rw [resize_length, resize_length]) i1 j1).1
    have happV : (⟨fun s i x => knnVisit T.num s i (x * (1 / e)), knnMax T.num⟩ : Visitor α (KnnState α)) =
      approxKnnVisitor T.num e := rfl
    rw [happV] at hsim
    rw [i1] at ho
    rw [j1]
    simp only [Outcome.bind, Outcome.ok.injEq] at ho ⊢
    rw [ho] at hsim
    refine hsim ?_
    intro x hx
    obtain ⟨h1, h2⟩ := hgen x hx
    have := (happ e he _ h1).1
    rw [← h2, mul_one_div, mul_div_assoc, div_self he0.ne', mul_one] at this
    exact this
  · intro sorter r e prior prior'
    exact (search_similar hf hG (approxRadiusVisitor e r) (approxRadiusVisitor e (c * r))
      (fun u w => w = u.map (Neighbor.scale c))
      (fun u w i hi h => by
        subst h
        rw [hdist i hi]
        simp only [approxRadiusVisitor, gt_iff_lt, mul_assoc, mul_lt_mul_iff_right₀ hc]
        split_ifs
        · rw [List.map_append]; rfl
        · rfl)
      (fun u w i hi D h hD => by
        simp only [approxRadiusVisitor, mul_assoc, mul_le_mul_iff_right₀ hc]) [] [] rfl).1

end Approx

/-! ## The trees -/

section
variable {α : Type} [CommRing α] [LinearOrder α] [IsStrictOrderedRing α] {d : Nat} {N : Num α} {pts : Nat → Pt α d}
  {n : Nat} {o : BuildOpts α d} {s : α} {t : Pt α d}

/-- C106 for the construction with the Euclidean tag: over moved points it ends in the same way (with the same fuel),
with the same indices, leaves and split axes, and moved boxes and borders. -/
theorem c106_tree_euclidean (M : Metric α d) (h : Movable N pts n o s t) (hn : 0 < n) (fuel : Nat) :
    KdTree.make (euclideanTag α d) M N (fun i => Pt.similar s t (pts i)) n (o.similar s t) fuel =
      (KdTree.make (euclideanTag α d) M N pts n o fuel).map (KdTree.similar s t (Branch1.similar s t)) :=
  make_similar h hn (fun _ _ _ => rfl) fuel

/-- C106 for the construction with the topological tag. -/
theorem c106_tree_topological (M : Metric α d) (h : Movable N pts n o s t) (hn : 0 < n) (fuel : Nat) :
    KdTree.make (topologicalTag α d) M N (fun i => Pt.similar s t (pts i)) n (o.similar s t) fuel =
      (KdTree.make (topologicalTag α d) M N pts n o fuel).map (KdTree.similar s t (Branch2.similar s t)) :=
  make_similar h hn (fun _ _ _ => rfl) fuel

omit [LinearOrder α] [IsStrictOrderedRing α] in
theorem eq_similar {β : Type} {T T' : KdTree α d β} {f : β → β} {x y : Outcome (KdTree α d β)} (h : x = .ok T)
    (h' : y = .ok T') (e : y = x.map (KdTree.similar s t f)) : T' = T.similar s t f := by
  rw [h, h'] at e
  exact Outcome.ok.inj e

omit [IsStrictOrderedRing α] in
theorem dist_similar {M : Metric α d} (hM : EuclideanAdditive M) {c : α} (hone : ∀ x, M.one (s * x) = c * M.one x)
    (x y : Pt α d) : M.dist (Pt.similar s t x) (Pt.similar s t y) = c * M.dist x y := by
  rw [hM.dist_eq, hM.dist_eq, Finset.mul_sum]
  refine Finset.sum_congr rfl fun j _ => ?_
  rw [← hone]
  simp only [Pt.similar]
  congr 1
  ring

/-- C106 for the searches of every additive metric whose axis term is multiplied by `c` when lengths are multiplied by
`s`. -/
theorem c106_search {M : Metric α d} (hM : EuclideanAdditive M) {c : α} (hc : 0 < c)
    (hone : ∀ x, M.one (s * x) = c * M.one x) (hm : Movable N pts n o s t) (hN : N.low ≤ N.big) (hn : 0 < n)
    {fuel : Nat} {T T' : KdTree α d (Branch1 α d)} (h : KdTree.make (euclideanTag α d) M N pts n o fuel = .ok T)
    (h' : KdTree.make (euclideanTag α d) M N (fun i => Pt.similar s t (pts i)) n (o.similar s t) fuel = .ok T')
    (q : Pt α d) (hbig : ∀ i < n, M.dist q (pts i) < N.big ∧ c * M.dist q (pts i) < N.big) :
    SameSearch c T T' q (Pt.similar s t q) := by
  obtain rfl := eq_similar h h' (c106_tree_euclidean M hm hn fuel)
  obtain ⟨h1, h2, h3, h4, h5, -⟩ := KdTree.make_ok h
  refine sameSearch hc (by rw [h1, h2]; exact tagSimilar_euclidean hm.pos t hone)
    (guardAt_euclidean hM h (hm.representable hN) hn q) (by rw [h5]; exact hn) ?_ ?_ ?_
  · intro i _
    rw [h2]
    exact dist_similar hM hone _ _
  · rw [h2, h3, h4, h5]
    exact fun i hi => (hbig i hi).1
  · rw [h2, h3, h4, h5]
    exact fun i hi => (hbig i hi).2

theorem l1_one_similar (hs : 0 < s) (x : α) : (metricL1 α d).one (s * x) = s * (metricL1 α d).one x := by
  simp only [metricL1, sabs_eq, abs_mul, abs_of_pos hs]

omit [IsStrictOrderedRing α] in
theorem l2_one_similar (x : α) : (metricL2Sq α d).one (s * x) = s * s * (metricL2Sq α d).one x := by
  simp only [metricL2Sq, squared]
  ring

/-- C106 for `metric_l1`: the same answers, distances multiplied by `s`. -/
theorem c106_l1 (hm : Movable N pts n o s t) (hN : N.low ≤ N.big) (hn : 0 < n) {fuel : Nat}
    {T T' : KdTree α d (Branch1 α d)} (h : KdTree.make (euclideanTag α d) (metricL1 α d) N pts n o fuel = .ok T)
    (h' : KdTree.make (euclideanTag α d) (metricL1 α d) N (fun i => Pt.similar s t (pts i)) n (o.similar s t) fuel =
      .ok T') (q : Pt α d) (hbig : ∀ i < n, Spec.l1 q (pts i) < N.big ∧ s * Spec.l1 q (pts i) < N.big) :
    SameSearch s T T' q (Pt.similar s t q) :=
  c106_search additive_l1 hm.pos (l1_one_similar hm.pos) hm hN hn h h' q
    (fun i hi => by rw [metricL1_dist]; exact hbig i hi)

/-- C106 for `metric_l2_squared`: the same answers, squared distances multiplied by `s * s`. -/
theorem c106_l2 (hm : Movable N pts n o s t) (hN : N.low ≤ N.big) (hn : 0 < n) {fuel : Nat}
    {T T' : KdTree α d (Branch1 α d)} (h : KdTree.make (euclideanTag α d) (metricL2Sq α d) N pts n o fuel = .ok T)
    (h' : KdTree.make (euclideanTag α d) (metricL2Sq α d) N (fun i => Pt.similar s t (pts i)) n (o.similar s t) fuel =
      .ok T') (q : Pt α d) (hbig : ∀ i < n, Spec.l2Sq q (pts i) < N.big ∧ s * s * Spec.l2Sq q (pts i) < N.big) :
    SameSearch (s * s) T T' q (Pt.similar s t q) :=
  c106_search additive_l2Sq (mul_pos hm.pos hm.pos) l2_one_similar hm hN hn h h' q
    (fun i hi => by rw [metricL2Sq_dist]; exact hbig i hi)

/-- C106 for box search and the leaf ranges, for every Euclidean metric: the very same lists. -/
theorem c106_box (M : Metric α d) (hm : Movable N pts n o s t) (hn : 0 < n) {fuel : Nat}
    {T T' : KdTree α d (Branch1 α d)} (h : KdTree.make (euclideanTag α d) M N pts n o fuel = .ok T)
    (h' : KdTree.make (euclideanTag α d) M N (fun i => Pt.similar s t (pts i)) n (o.similar s t) fuel = .ok T')
    (mn mx : Pt α d) (idxs idxs' : List Nat) :
    T'.searchBox (Pt.similar s t mn) (Pt.similar s t mx) idxs' = T.searchBox mn mx idxs ∧
      T'.leafRanges = T.leafRanges ∧ T'.data.indices = T.data.indices := by
  obtain rfl := eq_similar h h' (c106_tree_euclidean M hm hn fuel)
  obtain ⟨h1, h2, -⟩ := KdTree.make_ok h
  have hf : TagSimilar T.tag ⟨M.dist, fun x => x, M.space⟩ s s t (Branch1.similar s t) := by
    rw [h1]
    exact tagSimilar_euclidean hm.pos t (fun _ => rfl)
  have hf' : ∀ q x, T.tag.containsPt T.metric (Box.similar s t q) (Pt.similar s t x) = T.tag.containsPt T.metric q x := by
    rw [h1]
    exact (tagSimilar_euclidean (M := ⟨M.dist, fun x => x, M.space⟩) hm.pos t (fun _ => rfl)).pt
  have hb' : ∀ q x, T.tag.containsBox T.metric (Box.similar s t q) (Box.similar s t x) = T.tag.containsBox T.metric q x := by
    rw [h1]
    exact (tagSimilar_euclidean (M := ⟨M.dist, fun x => x, M.space⟩) hm.pos t (fun _ => rfl)).box
  refine ⟨?_, insertLeafRange_map _ _ _, rfl⟩
  have := searchBox_similar s t T.tag.splitDim T.tag.leftMax T.tag.rightMin
    (fun i => T.tag.containsPt T.metric ⟨mn, mx⟩ (T.pts i))
    (fun i => T.tag.containsPt T.metric (Box.similar s t ⟨mn, mx⟩) (Pt.similar s t (T.pts i)))
    (T.tag.containsBox T.metric ⟨mn, mx⟩) (T.tag.containsBox T.metric (Box.similar s t ⟨mn, mx⟩))
    (T.tag.intersectsLeft ⟨mn, mx⟩) (T.tag.intersectsRight ⟨mn, mx⟩)
    (T.tag.intersectsLeft (Box.similar s t ⟨mn, mx⟩)) (T.tag.intersectsRight (Box.similar s t ⟨mn, mx⟩))
    T.data.indices _ hf.dim hf.left hf.right (funext fun i => hf' _ _) (hb' _) (hf.il _) (hf.ir _) T.data.root
    T.data.rootBox []
  have h2 := congrArg Prod.snd this
  exact h2

/-- C106 for `metric_se2_squared`: the poses are moved in the plane, their angles stay.  The searches (with the same
distances), box search and leaf ranges give the same lists. -/
theorem c106_se2 {pts : Nat → Pt α 3} {o : BuildOpts α 3} {t : Pt α 3} (hm : Movable N pts n o 1 t) (ht : t 2 = 0)
    (hN : N.low ≤ N.big) (hn : 0 < n) {fuel : Nat} {T T' : KdTree α 3 (Branch2 α 3)}
    (h : KdTree.make (topologicalTag α 3) (metricSE2Sq α) N pts n o fuel = .ok T)
    (h' : KdTree.make (topologicalTag α 3) (metricSE2Sq α) N (fun i => Pt.similar 1 t (pts i)) n (o.similar 1 t)
      fuel = .ok T') :
    (∀ q, CircleOk (metricSE2Sq α).space pts n o q → (∀ i < n, (metricSE2Sq α).dist q (pts i) < N.big) →
      SameSearch 1 T T' q (Pt.similar 1 t q)) ∧
    ∀ (mn mx : Pt α 3) (idxs idxs' : List Nat),
      T'.searchBox (Pt.similar 1 t mn) (Pt.similar 1 t mx) idxs' = T.searchBox mn mx idxs ∧
      T'.leafRanges = T.leafRanges := by
  obtain rfl := eq_similar h h' (c106_tree_topological (metricSE2Sq α) hm hn fuel)
  obtain ⟨h1, h2, h3, h4, h5, -⟩ := KdTree.make_ok h
  have hf : TagSimilar T.tag T.metric 1 1 t (Branch2.similar 1 t) := by
    rw [h1, h2]
    refine tagSimilar_topological _ t fun j hj => ?_
    have : ¬ j.val < 2 := by
      intro hlt
      simp only [metricSE2Sq, if_pos hlt] at hj
      exact absurd hj (by decide)
    obtain rfl : j = 2 := Fin.ext (by have := j.isLt; simp; omega)
    exact ht
  refine ⟨fun q hc hbig => ?_, fun mn mx idxs idxs' => box_similar hf mn mx idxs idxs'⟩
  refine sameSearch one_pos hf (guardAt_topological topological_se2 h (hm.representable hN) hn q hc)
    (by rw [h5]; exact hn) ?_ ?_ ?_
  · intro i _
    rw [h2]
    simp only [metricSE2Sq, Pt.similar, squaredR1Distance, squaredS1Distance, one_mul, ht, add_zero,
      add_sub_add_right_eq_sub]
  · rw [h2, h3, h4, h5]
    exact hbig
  · rw [h2, h3, h4, h5]
    simpa only [one_mul] using hbig

end

section
variable {α : Type} [Field α] [LinearOrder α] [IsStrictOrderedRing α] {d : Nat} {N : Num α} {pts : Nat → Pt α d}
  {n : Nat} {o : BuildOpts α d} {s : α} {t : Pt α d}

/-- C106 for the approximate searches. -/
theorem c106_approx {M : Metric α d} (hM : EuclideanAdditive M) {c : α} (hc : 0 < c)
    (hone : ∀ x, M.one (s * x) = c * M.one x) (hm : Movable N pts n o s t) (hN : N.low ≤ N.big) (hn : 0 < n)
    {fuel : Nat} {T T' : KdTree α d (Branch1 α d)} (h : KdTree.make (euclideanTag α d) M N pts n o fuel = .ok T)
    (h' : KdTree.make (euclideanTag α d) M N (fun i => Pt.similar s t (pts i)) n (o.similar s t) fuel = .ok T')
    (q : Pt α d) (hbig : ∀ i < n, M.dist q (pts i) < N.big ∧ c * M.dist q (pts i) < N.big) :
    SameApprox c T T' q (Pt.similar s t q) := by
  obtain rfl := eq_similar h h' (c106_tree_euclidean M hm hn fuel)
  obtain ⟨h1, h2, h3, h4, h5, -⟩ := KdTree.make_ok h
  refine sameApprox hc (by rw [h1, h2]; exact tagSimilar_euclidean hm.pos t hone)
    (guardAt_euclidean hM h (hm.representable hN) hn q) (by rw [h5]; exact hn) ?_ ?_ ?_
  · intro i _
    rw [h2]
    exact dist_similar hM hone _ _
  · rw [h2, h3, h4, h5]
    exact fun i hi => (hbig i hi).1
  · rw [h2, h3, h4, h5]
    exact fun i hi => (hbig i hi).2

/-- C106 for the approximate searches of `metric_l2_squared`. -/
theorem c106_approx_l2 (hm : Movable N pts n o s t) (hN : N.low ≤ N.big) (hn : 0 < n) {fuel : Nat}
    {T T' : KdTree α d (Branch1 α d)} (h : KdTree.make (euclideanTag α d) (metricL2Sq α d) N pts n o fuel = .ok T)
    (h' : KdTree.make (euclideanTag α d) (metricL2Sq α d) N (fun i => Pt.similar s t (pts i)) n (o.similar s t) fuel =
      .ok T') (q : Pt α d) (hbig : ∀ i < n, Spec.l2Sq q (pts i) < N.big ∧ s * s * Spec.l2Sq q (pts i) < N.big) :
    SameApprox (s * s) T T' q (Pt.similar s t q) :=
  c106_approx additive_l2Sq (mul_pos hm.pos hm.pos) l2_one_similar hm hN hn h h' q
    (fun i hi => by rw [metricL2Sq_dist]; exact hbig i hi)

end

/-! ## What does not hold -/

/-- A point set on a line. -/
def ends2 : Nat → Pt ℚ 1
  | 0 => ![-1]
  | _ => ![1]

/-- C106 does not extend to reflections (`s = -1`): the points -1 and 1 are as far from 0; before the reflection the
first one is returned, after it the second one. -/
theorem c106_reflect_false :
    (KdTree.make (euclideanTag ℚ 1) (metricL1 ℚ 1) Ref.ratNum ends2 2 (Ref.optsSliding ℚ 1) 10).check (fun T =>
      (KdTree.make (euclideanTag ℚ 1) (metricL1 ℚ 1) Ref.ratNum (fun i => Pt.similar (-1) ![0] (ends2 i)) 2
        (Ref.optsSliding ℚ 1) 10).check fun T' =>
        decide ((T.searchNn ![0] ⟨7, 7⟩).index ≠ (T'.searchNn (Pt.similar (-1) ![0] ![0]) ⟨7, 7⟩).index)) = true := by
  decide +kernel

/-- Four points with integer coordinates. -/
def intLine4 : Nat → Pt Int 1
  | 0 => ![0]
  | 1 => ![0]
  | 2 => ![1]
  | _ => ![3]

/-- The sliding midpoint rule with at most two points per leaf. -/
def slidingTwo : BuildOpts Int 1 := ⟨Ref.std, .sliding, .maxLeafSize 2, .fromSpace, 32⟩

/-- C106 for `int` coordinates needs `s = 1`: `(3 - 0) / 2` is 1 but `(6 - 0) / 2` is 3, not 2, so twice as large
points end up in other leaves. -/
theorem c106_int_false :
    (KdTree.make (euclideanTag Int 1) (metricL1 Int 1) Ref.intNum intLine4 4 slidingTwo 10).check (fun T =>
      (KdTree.make (euclideanTag Int 1) (metricL1 Int 1) Ref.intNum (fun i => Pt.similar 2 ![0] (intLine4 i)) 4
        slidingTwo 10).check fun T' =>
        decide (T.leafRanges = .ok [(0, 2), (2, 4)] ∧ T'.leafRanges = .ok [(0, 2), (2, 3), (3, 4)])) = true := by
  decide +kernel

/-! ## Examples -/

theorem halfOk_rat {s : ℚ} : HalfOk Ref.ratNum s where
  mul x hx := by
    simp only [Ref.ratNum]
    refine ⟨by ring, by positivity, by linarith⟩
  div x hx := by
    simp only [Ref.ratNum]
    refine ⟨by ring, by positivity, by linarith⟩

theorem halfOk_int : HalfOk Ref.intNum 1 where
  mul x hx := by simp only [Ref.intNum, mul_zero, le_refl, hx, and_self]
  div x hx := by
    simp only [Ref.intNum, one_mul, true_and]
    rw [Int.tdiv_eq_ediv_of_nonneg hx]
    omega

theorem movable_plane5 : Movable Ref.ratNum plane5 5 (Ref.optsSliding ℚ 2) (3 / 2) ![10, -7] := by
  refine ⟨by norm_num, by decide +kernel, halfOk_rat, ?_, by unfold InRange; decide +kernel,
    by unfold InRange; decide +kernel, trivial, trivial, trivial⟩
  intro m hm
  cases hm
  decide

/-- Integer coordinates, moved by `(10, -7)`. -/
example : Movable Ref.intNum Ref.pts5 5 (Ref.optsSliding Int 2) 1 ![10, -7] := by
  refine ⟨by norm_num, by decide +kernel, halfOk_int, ?_, by unfold InRange; decide +kernel,
    by unfold InRange; decide +kernel, trivial, trivial, trivial⟩
  intro m hm
  cases hm
  decide

/-- Five points of the plane, enlarged and moved: both trees exist, and `c106_l2` and `c106_approx_l2` relate them. -/
example : ∃ T T', KdTree.make (euclideanTag ℚ 2) (metricL2Sq ℚ 2) Ref.ratNum plane5 5 (Ref.optsSliding ℚ 2) 20 = .ok T ∧
    KdTree.make (euclideanTag ℚ 2) (metricL2Sq ℚ 2) Ref.ratNum (fun i => Pt.similar (3 / 2) ![10, -7] (plane5 i)) 5
      ((Ref.optsSliding ℚ 2).similar (3 / 2) ![10, -7]) 20 = .ok T' ∧
    SameSearch (3 / 2 * (3 / 2)) T T' ![6, 2] (Pt.similar (3 / 2) ![10, -7] ![6, 2]) ∧
    SameApprox (3 / 2 * (3 / 2)) T T' ![6, 2] (Pt.similar (3 / 2) ![10, -7] ![6, 2]) := by
  have h : (KdTree.make (euclideanTag ℚ 2) (metricL2Sq ℚ 2) Ref.ratNum plane5 5 (Ref.optsSliding ℚ 2) 20).check
      (fun _ => (KdTree.make (euclideanTag ℚ 2) (metricL2Sq ℚ 2) Ref.ratNum
        (fun i => Pt.similar (3 / 2) ![10, -7] (plane5 i)) 5 ((Ref.optsSliding ℚ 2).similar (3 / 2) ![10, -7]) 20).check
        fun _ => true) = true := by decide +kernel
  obtain ⟨T, h1, h2⟩ := Outcome.exists_of_check h
  obtain ⟨T', h3, -⟩ := Outcome.exists_of_check h2
  exact ⟨T, T', h1, h3, c106_l2 movable_plane5 (by decide +kernel) (by decide) h1 h3 ![6, 2] (by decide +kernel),
    c106_approx_l2 movable_plane5 (by decide +kernel) (by decide) h1 h3 ![6, 2] (by decide +kernel)⟩

/-- Poses: moved in the plane, the angle stays. -/
def pose3 : Nat → Pt ℚ 3
  | 0 => ![0, 0, 1 / 10]
  | 1 => ![4, 1, 9 / 10]
  | _ => ![3, 7, 1 / 2]

example : ∃ T T', KdTree.make (topologicalTag ℚ 3) (metricSE2Sq ℚ) Ref.ratNum pose3 3 (Ref.optsSliding ℚ 3) 20 = .ok T ∧
    KdTree.make (topologicalTag ℚ 3) (metricSE2Sq ℚ) Ref.ratNum (fun i => Pt.similar 1 ![10, -7, 0] (pose3 i)) 3
      ((Ref.optsSliding ℚ 3).similar 1 ![10, -7, 0]) 20 = .ok T' ∧
    SameSearch 1 T T' ![2, 2, 1 / 5] (Pt.similar 1 ![10, -7, 0] ![2, 2, 1 / 5]) := by
  have hm : Movable Ref.ratNum pose3 3 (Ref.optsSliding ℚ 3) 1 ![10, -7, 0] := by
    refine ⟨by norm_num, by decide +kernel, halfOk_rat, ?_, by unfold InRange; decide +kernel,
      by unfold InRange; decide +kernel, trivial, trivial, trivial⟩
    intro m hm
    cases hm
    decide
  have h : (KdTree.make (topologicalTag ℚ 3) (metricSE2Sq ℚ) Ref.ratNum pose3 3 (Ref.optsSliding ℚ 3) 20).check
      (fun _ => (KdTree.make (topologicalTag ℚ 3) (metricSE2Sq ℚ) Ref.ratNum
        (fun i => Pt.similar 1 ![10, -7, 0] (pose3 i)) 3 ((Ref.optsSliding ℚ 3).similar 1 ![10, -7, 0]) 20).check
        fun _ => true) = true := by decide +kernel
  obtain ⟨T, h1, h2⟩ := Outcome.exists_of_check h
  obtain ⟨T', h3, -⟩ := Outcome.exists_of_check h2
  refine ⟨T, T', h1, h3, (c106_se2 hm rfl (by decide +kernel) (by decide) h1 h3).1 _ ?_ (by decide +kernel)⟩
  exact ⟨by decide +kernel, by decide +kernel, by intro h; cases h⟩

end Props

end Pico
