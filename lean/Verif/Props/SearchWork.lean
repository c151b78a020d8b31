import Verif.Proof.LineWork
import Verif.Props.Looked
import Verif.Props.Cells
import Verif.Props.Work
import Verif.Proof.ForestSearch

/-!
# C116: how many nodes a nearest neighbor search visits

`T.trace q V s` lists the nodes for which `search_nearest` is called, `Spec.openedOf` the leaves among them.
-/

namespace Pico.Props

open Pico Spec

section Trace
variable {α : Type} [Field α] [LinearOrder α] {d : Nat} {β σ : Type}

/-- For every tree, query and visitor. The search shows the visitor the points of the leaves on the list, leaf after
leaf. No leaf is opened twice, at least one is, and every call of `search_nearest` is on the way to one of them. -/
theorem c116_trace (T : KdTree α d β) (q : Pt α d) (V : Visitor α σ) (s : σ) :
    T.looked q V s = ((openedOf (T.trace q V s)).flatMap fun r => slice T.data.indices r.1 r.2) ∧
    (openedOf (T.trace q V s)).Subperm (ranges T.data.root) ∧ 1 ≤ (openedOf (T.trace q V s)).length ∧
    (T.trace q V s).length ≤ (openedOf (T.trace q V s)).length * (height T.data.root + 1) := by
  refine ⟨?_, openedOf_ranges .., openedOf_pos .., searchTrace_length ..⟩
  have h := searchNearest_trace T.tag.splitDim (T.tag.pick T.metric q) (recording V)
    (fun i => T.metric.dist q (T.pts i)) T.data.indices T.data.root 0 (fun _ => 0) (s, [])
  rw [visitAll_recording, searchTrace_recording] at h
  rw [KdTree.looked, KdTree.searchNearest, searchNearestRoot, h]
  simp [pointsOf, KdTree.trace]

end Trace

section Line
variable {α : Type} [Field α] [LinearOrder α] [IsStrictOrderedRing α] {N : Num α} {pts : Nat → Pt α 1}
  {n : Nat} {o : BuildOpts α 1} {fuel : Nat} {M : Metric α 1} {T : KdTree α 1 (Branch1 α 1)} {σ : Type}

/-- A search that takes few steps: it opens at most `c` leaves. -/
structure FewSteps (T : KdTree α 1 (Branch1 α 1)) (q : Pt α 1) (V : Visitor α σ) (s : σ) (c : Nat) : Prop where
  leaves : (openedOf (T.trace q V s)).length ≤ c
  calls : (T.trace q V s).length ≤ c * (height T.data.root + 1)
  points : ∀ m, (∀ r ∈ ranges T.data.root, r.2 - r.1 ≤ m) → (T.looked q V s).length ≤ c * m

omit [IsStrictOrderedRing α] in
theorem fewSteps_of_leaves {q : Pt α 1} {V : Visitor α σ} {s : σ} {c : Nat}
    (h : (openedOf (T.trace q V s)).length ≤ c) : FewSteps T q V s c := by
  obtain ⟨h1, h2, -, h4⟩ := c116_trace T q V s
  refine ⟨h, h4.trans (Nat.mul_le_mul_right _ h), fun m hm => ?_⟩
  rw [h1, List.length_flatMap]
  have hs : ∀ x ∈ (openedOf (T.trace q V s)).map fun r => (slice T.data.indices r.1 r.2).length, x ≤ m := by
    intro x hx
    obtain ⟨r, hr, rfl⟩ := List.mem_map.1 hx
    refine le_trans ?_ (hm r (h2.subset hr))
    simp only [slice, List.length_take]
    omega
  have := List.sum_le_card_nsmul _ m hs
  rw [List.length_map, smul_eq_mul] at this
  exact this.trans (Nat.mul_le_mul_right _ h)

/-- Distinct points on a line, the median or the sliding midpoint rule. The searches for the nearest neighbor open at
most three leaves, those for `k` neighbors at most `2 * k + 1`, exact or approximate. They call `search_nearest` at most
so often times one more than the height of the tree. -/
theorem c116_line_partial (hM : StrictLine M) (h00 : 0 ≤ M.one 0)
    (h : KdTree.make (euclideanTag α 1) M N pts n o fuel = .ok T) (hR : Representable N pts n o) (hn : 0 < n)
    (hr : o.rule ≠ .midpoint) (hd : ∀ i < n, ∀ k < n, pts i 0 = pts k 0 → i = k) (q : Pt α 1)
    (hbig : ∀ i < n, M.dist q (pts i) < N.big) :
    (∀ nn, FewSteps T q nnVisitor (nnInit N nn) 3) ∧
    (∀ e nn, 1 ≤ e → FewSteps T q (approxNnVisitor e) (nnInit N nn) 3) ∧
    (∀ buf s, knnInit N buf = .ok s → FewSteps T q (knnVisitor N) s (2 * buf.length + 1)) ∧
    (∀ e buf s, 1 ≤ e → knnInit N buf = .ok s → FewSteps T q (approxKnnVisitor N e) s (2 * buf.length + 1)) := by
  obtain ⟨hperm, _, _, hel⟩ := KdTree.make_built h hR hn
  obtain ⟨h1, h2, h3, h4, h5, _⟩ := KdTree.make_ok h
  obtain ⟨box, hc⟩ := created_of_make h
  have hlt : ∀ i ∈ T.data.root.elems T.data.indices, i < n := fun i hi => by
    rw [hel] at hi
    exact List.mem_range.1 (hperm.subset hi)
  have hnn : ∀ i < n, 0 ≤ M.dist q (pts i) := fun i _ => by
    rw [hM.dist_eq]
    exact h00.trans (hM.mono (by simp))
  have hline := hc.lineTree rfl hR.num (stopOk_of_created hc (by simpa using hn)) hr
    (fun i hi => hR.points i (List.mem_range.1 hi)) List.nodup_range
    (fun i hi k hk => hd i (List.mem_range.1 hi) k (List.mem_range.1 hk)) [] [] rfl
  simp only [List.nil_append, List.append_nil] at hline
  have hle : ∀ r ∈ ranges T.data.root, r.2 ≤ T.data.indices.length := by
    intro r hr'
    have := (c16_partition h).2.1
    have hx := tiles_mem_le this r hr'
    rw [hperm.length_eq, List.length_range]
    exact hx
  have hne : ∀ r ∈ ranges T.data.root, 1 ≤ (slice T.data.indices r.1 r.2).length := by
    intro r hr'
    have := (c20_nonempty h hn hr).1 r hr'
    have := hle r hr'
    simp only [slice, List.length_take, List.length_drop]
    omega
  have hA := hline.around hM pts q T.data.indices hne
  have key : ∀ {σ : Type} (V : Visitor α σ) (s : σ) (k : Nat) (f : Nat → α), 0 < k →
      CountMax V (fun i => M.dist q (pts i)) f (· < n) s k N.big →
      (∀ i < n, f i ≤ M.dist q (pts i)) → FewSteps T q V s (2 * k + 1) := by
    intro σ V s k f hk hV hf
    apply fewSteps_of_leaves
    obtain ⟨c, hc1, hc2⟩ := around_opened (T.tag.splitDim) ((euclideanTag α 1).pick M q) T.data.indices hk hV
      (fun i hi => ⟨hf i hi, (hf i hi).trans_lt (hbig i hi)⟩) (sideOf pts q) T.data.root hne hA hlt (fun _ => 0) rfl
    have a1 := (hc1 true).1
    have a2 := (hc1 false).1
    simp only [KdTree.trace, h2, h4]
    rw [h1] at hc2 ⊢
    omega
  have hsc : ∀ e : α, 1 ≤ e → ∀ i < n, scaled e (fun i => M.dist q (pts i)) i ≤ M.dist q (pts i) :=
    fun e he i hi => scaled_le he (dist := fun i => M.dist q (pts i)) (hnn i hi)
  refine ⟨fun nn => ?_, fun e nn he => ?_, fun buf s hs => ?_, fun e buf s he hs => ?_⟩
  · exact key nnVisitor _ 1 _ one_pos (countMax_nn _ _ _ _) fun i _ => le_rfl
  · refine key (approxNnVisitor e) _ 1 (scaled e fun i => M.dist q (pts i)) one_pos ?_ (hsc e he)
    intro w hw
    exact countMax_nn N (scaled e fun i => M.dist q (pts i)) nn (· < n) w hw
  · refine key _ _ _ (fun i => M.dist q (pts i)) (knnInit_pos hs) ?_ fun i _ => le_rfl
    intro w hw
    exact countMax_knn N (fun i => M.dist q (pts i)) (knnInit_pos hs) hs w fun i hi => hbig i (hw i hi)
  · refine key _ _ _ (scaled e fun i => M.dist q (pts i)) (knnInit_pos hs) ?_ (hsc e he)
    intro w hw
    exact countMax_knn N (scaled e fun i => M.dist q (pts i)) (knnInit_pos hs) hs w
      fun i hi => (hsc e he i (hw i hi)).trans_lt (hbig i (hw i hi))

/-- With the median rule and leaves of at most `m` points the number of calls and of points is logarithmic. -/
theorem c116_median_partial (hM : StrictLine M) (h00 : 0 ≤ M.one 0)
    (h : KdTree.make (euclideanTag α 1) M N pts n o fuel = .ok T) (hR : Representable N pts n o) (hn : 0 < n)
    (hr : o.rule = .median) {m : Nat} (hs : o.stop = .maxLeafSize m) (hm : m < 2 ^ (o.indexBits - 1)) (j : Nat)
    (hj : n ≤ m * 2 ^ j)
    (hd : ∀ i < n, ∀ k < n, pts i 0 = pts k 0 → i = k) (q : Pt α 1) (hbig : ∀ i < n, M.dist q (pts i) < N.big)
    {e : α} (he : 1 ≤ e) {buf : List (Neighbor α)} {s : KnnState α} (hb : knnInit N buf = .ok s) :
    ((T.trace q (approxKnnVisitor N e) s).length ≤ (2 * buf.length + 1) * (j + 1) ∧
      (T.looked q (approxKnnVisitor N e) s).length ≤ (2 * buf.length + 1) * m) ∧
    ((T.trace q (knnVisitor N) s).length ≤ (2 * buf.length + 1) * (j + 1) ∧
      (T.looked q (knnVisitor N) s).length ≤ (2 * buf.length + 1) * m) := by
  have hr' : o.rule ≠ .midpoint := by rw [hr]; decide
  obtain ⟨-, -, h3, h4⟩ := c116_line_partial hM h00 h hR hn hr' hd q hbig
  have hsz := c18_leaf_size_partial h hs hm
  obtain ⟨box, hc⟩ := created_of_make h
  have hh := hc.height_le hr hs hm j (by simpa using hj)
  exact ⟨⟨(h4 e buf s he hb).calls.trans (Nat.mul_le_mul_left _ (by omega)), (h4 e buf s he hb).points m hsz⟩,
    ⟨(h3 buf s hb).calls.trans (Nat.mul_le_mul_left _ (by omega)), (h3 buf s hb).points m hsz⟩⟩

end Line

section Equal
variable {α : Type} [Field α] [LinearOrder α] [IsStrictOrderedRing α] {d : Nat} {N : Num α} {pts : Nat → Pt α d}
  {n : Nat} {o : BuildOpts α d} {fuel : Nat} {M : Metric α d} {T : KdTree α d (Branch1 α d)} {σ : Type}

omit [Field α] [IsStrictOrderedRing α] in
theorem Built.tightCell_self {o : Nat} {t : Tree (Branch1 α d)} {seg : List Nat} {box : Box α d}
    (h : Built pts setBranchEuclidean o t seg box) (pre post : List Nat) (ho : o = pre.length) (i : Nat) :
    tightCell (pre ++ (seg ++ post)) t i (pts i) := by
  induction h generalizing pre post with
  | leaf _ => trivial
  | @branch o l r segL segR boxL boxR dim hl hr hlr ih1 ih2 =>
    have hel := hl.elems_eq pre (segR ++ post) ho
    have her := hr.elems_eq (pre ++ segL) post (by simp [ho])
    have g1 := ih1 pre (segR ++ post) ho
    have g2 := ih2 (pre ++ segL) post (by simp [ho])
    simp only [List.append_assoc] at hel her g1 g2 ⊢
    refine ⟨fun hh => ⟨?_, g1⟩, fun hh => ⟨?_, g2⟩⟩
    · rw [holds_iff, hel] at hh
      exact (hl.mem i hh dim).2
    · rw [holds_iff, her] at hh
      exact (hr.mem i hh dim).1

/-- Every stored point that equals the query is looked at, whatever the rule, the number of neighbors and the error
ratio. -/
theorem c116_equal (hM : EuclideanAdditive M) (h0 : M.one 0 = 0)
    (h : KdTree.make (euclideanTag α d) M N pts n o fuel = .ok T) (hR : Representable N pts n o) (hn : 0 < n)
    (q : Pt α d) (hbig : ∀ i < n, M.dist q (pts i) < N.big) {i : Nat} (hi : i < n) (hq : pts i = q) :
    (∀ nn, i ∈ T.looked q nnVisitor (nnInit N nn)) ∧
    (∀ e nn, 1 ≤ e → i ∈ T.looked q (approxNnVisitor e) (nnInit N nn)) ∧
    (∀ buf s, knnInit N buf = .ok s → i ∈ T.looked q (knnVisitor N) s) ∧
    (∀ e buf s, 1 ≤ e → knnInit N buf = .ok s → i ∈ T.looked q (approxKnnVisitor N e) s) := by
  obtain ⟨hperm, _, ⟨box, hB⟩, hel⟩ := KdTree.make_built h hR hn
  obtain ⟨h1, h2, h3, h4, h5, _⟩ := KdTree.make_ok h
  have hnn : ∀ i < n, 0 ≤ M.dist q (pts i) := fun i _ => by
    rw [hM.dist_eq]
    exact Finset.sum_nonneg fun j _ => hM.one_nonneg _
  have hqq : M.dist q q = 0 := by
    rw [hM.dist_eq]
    simp [h0]
  have htight : tightCell T.data.indices T.data.root i q := by
    rw [← hq]
    simpa using Built.tightCell_self hB [] [] rfl i
  have key : ∀ {σ : Type} (V : Visitor α σ) (s : σ) (k : Nat) (f : Nat → α), 0 < k →
      CountMax V (fun i => M.dist q (pts i)) f (· < n) s k N.big → (∀ i < n, 0 ≤ f i) → i ∈ T.looked q V s := by
    intro σ V s k f hk hV hf
    refine c102_reached hM h hR hn q V s 0 (fun w hw => ?_) hi htight hqq.le
    have hwn : ∀ i ∈ w, i < n := by
      intro i hi
      have := (c100_answer T q V s).2.2
      rw [hel] at this
      exact List.mem_range.1 ((this.trans hperm.subperm).subset (hw.subset hi))
    by_contra hneg
    rw [not_le] at hneg
    have hb0 : (0 : α) < N.big := (hnn i hi).trans_lt (hbig i hi)
    have := ((hV w hwn).2 _ (hneg.trans hb0)).1 le_rfl
    obtain ⟨a, ha, hle⟩ := List.countP_pos_iff.1 (lt_of_lt_of_le hk this)
    have hle := of_decide_eq_true hle
    exact absurd (hf a (hwn a ha)) (not_le.2 (hle.trans_lt hneg))
  have hsc : ∀ e : α, 1 ≤ e → ∀ i < n, scaled e (fun i => M.dist q (pts i)) i ≤ M.dist q (pts i) ∧
      0 ≤ scaled e (fun i => M.dist q (pts i)) i :=
    fun e he i hi => ⟨scaled_le he (dist := fun i => M.dist q (pts i)) (hnn i hi),
      mul_nonneg (hnn i hi) (by positivity)⟩
  refine ⟨fun nn => ?_, fun e nn he => ?_, fun buf s hs => ?_, fun e buf s he hs => ?_⟩
  · exact key nnVisitor _ 1 _ one_pos (countMax_nn _ _ _ _) hnn
  · refine key (approxNnVisitor e) _ 1 (scaled e fun i => M.dist q (pts i)) one_pos ?_ fun i hi => (hsc e he i hi).2
    intro w hw
    exact countMax_nn N (scaled e fun i => M.dist q (pts i)) nn (· < n) w hw
  · refine key _ _ _ (fun i => M.dist q (pts i)) (knnInit_pos hs) ?_ hnn
    intro w hw
    exact countMax_knn N (fun i => M.dist q (pts i)) (knnInit_pos hs) hs w fun i hi => hbig i (hw i hi)
  · refine key _ _ _ (scaled e fun i => M.dist q (pts i)) (knnInit_pos hs) ?_ fun i hi => (hsc e he i hi).2
    intro w hw
    exact countMax_knn N (scaled e fun i => M.dist q (pts i)) (knnInit_pos hs) hs w
      fun i hi => (hsc e he i (hw i hi)).1.trans_lt (hbig i (hw i hi))

/-- If all stored points equal the query, then each search looks at all of them. -/
theorem c116_equal_all (hM : EuclideanAdditive M) (h0 : M.one 0 = 0)
    (h : KdTree.make (euclideanTag α d) M N pts n o fuel = .ok T) (hR : Representable N pts n o) (hn : 0 < n)
    (q : Pt α d) (hq : ∀ i < n, pts i = q) (hbig : 0 < N.big) :
    (∀ nn, (T.looked q nnVisitor (nnInit N nn)).length = n) ∧
    (∀ e nn, 1 ≤ e → (T.looked q (approxNnVisitor e) (nnInit N nn)).length = n) ∧
    (∀ buf s, knnInit N buf = .ok s → (T.looked q (knnVisitor N) s).length = n) ∧
    (∀ e buf s, 1 ≤ e → knnInit N buf = .ok s → (T.looked q (approxKnnVisitor N e) s).length = n) := by
  obtain ⟨hperm, _, ⟨box, hB⟩, hel⟩ := KdTree.make_built h hR hn
  have hqq : M.dist q q = 0 := by
    rw [hM.dist_eq]
    simp [h0]
  have hall : ∀ {i}, i < n → _ := fun {i} hi =>
    c116_equal hM h0 h hR hn q (fun i hi => by rw [hq i hi, hqq]; exact hbig) hi (hq i hi)
  have key : ∀ {σ : Type} (V : Visitor α σ) (s : σ), (∀ i < n, i ∈ T.looked q V s) →
      (T.looked q V s).length = n := by
    intro σ V s hmem
    have h1 := (c100_answer T q V s).2.2
    rw [hel] at h1
    have h2 := (h1.trans hperm.subperm).length_le
    rw [List.length_range] at h2
    have h3 := (List.nodup_range.subperm fun i hi => hmem i (List.mem_range.1 hi)).length_le
    rw [List.length_range] at h3
    exact le_antisymm h2 h3
  exact ⟨fun nn => key _ _ fun i hi => (hall hi).1 nn,
    fun e nn he => key _ _ fun i hi => (hall hi).2.1 e nn he,
    fun buf s hs => key _ _ fun i hi => (hall hi).2.2.1 buf s hs,
    fun e buf s he hs => key _ _ fun i hi => (hall hi).2.2.2 e buf s he hs⟩

end Equal

section Chain
variable {α : Type} [Field α] [LinearOrder α] [IsStrictOrderedRing α]

/-- The way down through the left children. -/
def leftSpine {β : Type} : Tree β → Nat
  | .leaf _ _ => 0
  | .branch _ l _ => leftSpine l + 1

/-- A query to the left of all points goes down the left children. -/
theorem leftSpine_le_trace {M : Metric α 1} {pts : Nat → Pt α 1} {q : Pt α 1} {v : List Nat} {σ : Type}
    (V : Visitor α σ) (dist : Nat → α) {t : Tree (Branch1 α 1)} (h : LineTree (fun i => pts i 0) v t)
    (hne : ∀ x ∈ ranges t, 1 ≤ (slice v x.1 x.2).length) (hq : ∀ i ∈ t.elems v, q 0 ≤ pts i 0) (D : α)
    (st : Pt α 1 × σ) :
    leftSpine t + 1 ≤
      (searchTrace (euclideanTag α 1).splitDim ((euclideanTag α 1).pick M q) V dist v t D st).length := by
  induction t generalizing D st with
  | leaf b e => exact le_rfl
  | branch b l r ihl ihr =>
    obtain ⟨h1, h2, h3, h4, h5⟩ := h
    have hnl : ∀ x ∈ ranges l, 1 ≤ (slice v x.1 x.2).length :=
      fun x hx => hne x (by rw [ranges_branch]; exact List.mem_append_left _ hx)
    have hl : ∀ i ∈ l.elems v, q 0 ≤ pts i 0 := fun i hi => hq i (List.mem_append_left _ hi)
    have h0 : b.splitDim = 0 := Subsingleton.elim _ _
    obtain ⟨i, hi⟩ : ∃ i, i ∈ l.elems v := elems_nonempty v l hnl
    have hv : q 0 ≤ b.leftMax := (hl i hi).trans (h1 i hi)
    have hc : b.leftMax + b.rightMin - q b.splitDim - q b.splitDim > 0 := by rw [h0]; linarith
    have hp : (euclideanTag α 1).pick M q b = (true, M.one (b.rightMin - q 0)) := by
      simp only [euclideanTag, pickEuclidean]
      rw [if_pos hc, h0]
    have := ihl h4 hnl hl D st
    simp only [searchTrace, hp, if_true, List.length_append, List.length_cons, leftSpine]
    omega

/-- Points at `0, 1, 3, 7, …, 2 ^ (n - 1) - 1`, divided by `2 ^ n`. -/
def doubling (α : Type) [Field α] (n : Nat) : Nat → Pt α 1 := fun i _ => (2 ^ i - 1) / 2 ^ n

theorem doubling_lt (n : Nat) {i k : Nat} (h : i < k) : doubling α n i 0 < doubling α n k 0 := by
  have h2 : (0 : α) < 2 ^ n := by positivity
  have : (2 : α) ^ i < 2 ^ k := pow_lt_pow_right₀ one_lt_two h
  simp only [doubling]
  exact div_lt_div_of_pos_right (by linarith) h2

omit [IsStrictOrderedRing α] in
theorem splitSliding_plain {C : BuildCfg α 1 (Branch1 α 1)} (hr : C.rule = .sliding)
    (hdiv : ∀ x, C.N.divTwo x = x / 2) {seg : List Nat} {box : Box α 1} {sp : Split α 1}
    (h : splitter C seg box = .ok sp) {a b : Nat} (ha : a ∈ seg) (hb : b ∈ seg)
    (hal : C.pts a 0 < (box.max 0 - box.min 0) / 2 + box.min 0)
    (hbl : (box.max 0 - box.min 0) / 2 + box.min 0 ≤ C.pts b 0) :
    sp.dim = 0 ∧ sp.val = (box.max 0 - box.min 0) / 2 + box.min 0 ∧
      (∀ i ∈ sp.seg.take sp.pos, C.pts i 0 < sp.val) ∧ ∀ i ∈ sp.seg.drop sp.pos, ¬ C.pts i 0 < sp.val := by
  simp only [splitter, hr] at h
  unfold splitSliding at h
  split at h
  · simp at h
  · rename_i dim delta hm
    have h0 : dim = 0 := Subsingleton.elim _ _
    subst h0
    have hd := (maxSide_some hm).1
    rw [hdiv, hd] at h
    dsimp only at h
    have hp := C.S.partition_perm (coordBelow C.pts 0 ((box.max 0 - box.min 0) / 2 + box.min 0)) seg
    have hl := C.S.partition_left (coordBelow C.pts 0 ((box.max 0 - box.min 0) / 2 + box.min 0)) seg
    have hrr := C.S.partition_right (coordBelow C.pts 0 ((box.max 0 - box.min 0) / 2 + box.min 0)) seg
    have hka : (C.S.partition (coordBelow C.pts 0 ((box.max 0 - box.min 0) / 2 + box.min 0)) seg).2 ≠ 0 := by
      intro e
      rw [e] at hrr
      have := hrr a (by simpa using hp.symm.subset ha)
      simp only [coordBelow, decide_eq_false_iff_not] at this
      exact this hal
    have hkb : (C.S.partition (coordBelow C.pts 0 ((box.max 0 - box.min 0) / 2 + box.min 0)) seg).2 ≠
        (C.S.partition (coordBelow C.pts 0 ((box.max 0 - box.min 0) / 2 + box.min 0)) seg).1.length := by
      intro e
      rw [e] at hl
      have := hl b (by simpa using hp.symm.subset hb)
      simp only [coordBelow, decide_eq_true_eq] at this
      exact absurd this (not_lt.2 hbl)
    rw [if_neg hkb, if_neg hka] at h
    simp only [Outcome.ok.injEq] at h
    subst h
    refine ⟨rfl, rfl, fun i hi => ?_, fun i hi => ?_⟩
    · have := hl i hi
      simpa [coordBelow] using this
    · have := hrr i hi
      simpa [coordBelow] using this

/-- The sliding midpoint rule takes the last of these points away at every level. -/
theorem Created.leftSpine_doubling {n : Nat} {C : BuildCfg α 1 (Branch1 α 1)} (hr : C.rule = .sliding)
    (hst : C.stop = .maxLeafSize 1) (hm : 1 < 2 ^ (C.indexBits - 1)) (hdiv : ∀ x, C.N.divTwo x = x / 2)
    (hpts : C.pts = doubling α n) {depth : Int} {o : Nat} {seg : List Nat}
    {box : Box α 1} {t : Tree (Branch1 α 1)} {seg' : List Nat} {box' : Box α 1}
    (h : Created C depth o seg box t seg' box') (k : Nat) (hk : seg.Perm (List.range (k + 1)))
    (hmin : box.min 0 = 0) (hmax : (2 ^ k - 1) / 2 ^ n ≤ box.max 0 ∧ box.max 0 < 2 ^ k / 2 ^ n) :
    leftSpine t = k := by
  induction h generalizing k with
  | @leaf depth o seg box hl =>
    simp only [isLeaf, hst, castIndex_eq hm, decide_eq_true_eq, hk.length_eq, List.length_range] at hl
    have : k + 1 ≤ 1 := by exact_mod_cast hl
    simp only [leftSpine]
    omega
  | @branch depth o seg box sp l r segL segR boxL boxR hl hs hL hR ih1 ih2 =>
    simp only [isLeaf, hst, castIndex_eq hm, decide_eq_false_iff_not, hk.length_eq, List.length_range] at hl
    obtain ⟨j, rfl⟩ : ∃ j, k = j + 1 := by
      rcases k with _ | j
      · exact absurd (by simp) hl
      · exact ⟨j, rfl⟩
    have h2 : (0 : α) < 2 ^ n := by positivity
    have e1 : ((2 : α) ^ (j + 1) - 1) / 2 ^ n ≤ box.max 0 := hmax.1
    have e2 : box.max 0 < (2 : α) ^ (j + 1) / 2 ^ n := hmax.2
    rw [div_le_iff₀ h2] at e1
    rw [lt_div_iff₀ h2] at e2
    rw [pow_succ] at e1 e2
    have hpj : (1 : α) ≤ 2 ^ j := one_le_pow₀ one_le_two
    have hlow : ∀ i ≤ j, doubling α n i 0 < (box.max 0 - box.min 0) / 2 + box.min 0 := by
      intro i hi
      have : (2 : α) ^ i ≤ 2 ^ j := pow_le_pow_right₀ one_le_two hi
      simp only [doubling, hmin]
      rw [div_lt_iff₀ h2]
      linarith
    have hhigh : (box.max 0 - box.min 0) / 2 + box.min 0 ≤ doubling α n (j + 1) 0 := by
      simp only [doubling, hmin]
      rw [le_div_iff₀ h2, pow_succ]
      linarith
    obtain ⟨p1, p2, p3, p4⟩ := splitSliding_plain hr hdiv hs (a := 0) (b := j + 1)
      (hk.symm.subset (List.mem_range.2 (by omega))) (hk.symm.subset (List.mem_range.2 (by omega)))
      (by rw [hpts]; exact hlow 0 (Nat.zero_le _)) (by rw [hpts]; exact hhigh)
    have hperm : (sp.seg.take sp.pos ++ sp.seg.drop sp.pos).Perm (List.range (j + 1 + 1)) := by
      rw [List.take_append_drop]
      exact (splitter_ok hs).1.perm.trans hk
    rw [p2] at p3 p4
    rw [hpts] at p3 p4
    have hn1 := (List.nodup_append.1 (hperm.nodup_iff.2 List.nodup_range)).1
    have hleft : (sp.seg.take sp.pos).Perm (List.range (j + 1)) := by
      refine (List.perm_ext_iff_of_nodup hn1 List.nodup_range).2 fun i => ⟨fun hi => ?_, fun hi => ?_⟩
      · have hlt := List.mem_range.1 (hperm.subset (List.mem_append_left _ hi))
        rw [List.mem_range]
        by_contra hcon
        have : i = j + 1 := by omega
        subst this
        exact absurd (p3 _ hi) (not_lt.2 hhigh)
      · have hlt := List.mem_range.1 hi
        rcases List.mem_append.1 (hperm.symm.subset (List.mem_range.2 (by omega : i < j + 1 + 1))) with h | h
        · exact h
        · exact absurd (hlow i (by omega)) (p4 i h)
    have := ih1 j hleft (by rw [Box.setMax_min]; exact hmin) (by
      rw [p1, Box.setMax_max_self, p2, hmin]
      constructor
      · rw [div_le_iff₀ h2]; linarith
      · rw [lt_div_iff₀ h2]; linarith)
    simp only [leftSpine, this]

end Chain

/-- The claim is false on a line of distinct points. For every constant there are points for which a tree with the
default rule needs more calls of `search_nearest` than that constant times `log₂ n + 1`, whatever the visitor: the error
ratio does not matter. -/
theorem c116_sliding_false (c : Nat) :
    ∃ (n : Nat) (T : KdTree ℚ 1 (Branch1 ℚ 1)) (fuel : Nat),
      KdTree.make (euclideanTag ℚ 1) (metricL2Sq ℚ 1) Ref.ratNum (doubling ℚ n) n (Ref.optsSliding ℚ 1) fuel = .ok T ∧
      (∀ i k, i < k → doubling ℚ n i 0 < doubling ℚ n k 0) ∧
      ∀ {σ : Type} (V : Visitor ℚ σ) (s : σ), c * (Nat.log 2 n + 1) < (T.trace (fun _ => 0) V s).length := by
  obtain ⟨t, ht⟩ : ∃ t, t = 2 * c + 2 := ⟨_, rfl⟩
  have hn : 0 < 2 ^ t := Nat.two_pow_pos _
  have hp : ∀ i < 2 ^ t, ∀ j, (0 : ℚ) ≤ doubling ℚ (2 ^ t) i j ∧
      doubling ℚ (2 ^ t) i j ≤ (2 ^ (2 ^ t - 1) - 1) / 2 ^ 2 ^ t := by
    intro i hi j
    have h2 : (0 : ℚ) < 2 ^ 2 ^ t := by positivity
    simp only [doubling]
    have a1 : (1 : ℚ) ≤ 2 ^ i := one_le_pow₀ one_le_two
    have a2 : (2 : ℚ) ^ i ≤ 2 ^ (2 ^ t - 1) := pow_le_pow_right₀ one_le_two (by omega)
    exact ⟨div_nonneg (by linarith) h2.le, div_le_div_of_nonneg_right (by linarith) h2.le⟩
  have hle1 : ((2 : ℚ) ^ (2 ^ t - 1) - 1) / 2 ^ 2 ^ t ≤ 1 := by
    rw [div_le_one (by positivity)]
    have : (2 : ℚ) ^ (2 ^ t - 1) ≤ 2 ^ 2 ^ t := pow_le_pow_right₀ one_le_two (by omega)
    linarith
  have hge0 : (0 : ℚ) ≤ ((2 : ℚ) ^ (2 ^ t - 1) - 1) / 2 ^ 2 ^ t := (hp 0 hn 0).1.trans (hp 0 hn 0).2
  obtain ⟨fuel, T, hT⟩ := c22_terminates_partial (n := 2 ^ t) (N := Ref.ratNum)
    (pts := doubling ℚ (2 ^ t)) (o := Ref.optsSliding ℚ 1) (euclideanTag ℚ 1) (metricL2Sq ℚ 1)
    (a := 0) (b := 1)
    (splitSafe_field (fun x => by simp only [Ref.ratNum]; ring) (fun x => rfl)
      (by norm_num [Ref.ratNum]))
    (by decide) hn (by simp [Ref.optsSliding])
    (by intro m hm; simp only [Ref.optsSliding, Stop.maxLeafSize.injEq] at hm; subst hm
        exact ⟨le_rfl, by norm_num [Ref.optsSliding]⟩)
    (fun i hi j => ⟨(hp i hi j).1, (hp i hi j).2.trans hle1⟩)
    (by norm_num [Ref.ratNum]) (by simp [Ref.optsSliding])
  have h := hT fuel le_rfl
  refine ⟨2 ^ t, T, fuel, h, fun i k => doubling_lt _, fun V s => ?_⟩
  have hR : Representable Ref.ratNum (doubling ℚ (2 ^ t)) (2 ^ t) (Ref.optsSliding ℚ 1) :=
    ⟨by norm_num [Ref.ratNum], fun i hi j => by
      have := hp i hi j
      constructor
      · exact le_trans (by norm_num [Ref.ratNum]) this.1
      · exact (this.2.trans hle1).trans (by norm_num [Ref.ratNum]),
      trivial, by simp [Ref.optsSliding]⟩
  obtain ⟨hperm, _, _, hel⟩ := KdTree.make_built h hR hn
  obtain ⟨h1, h2, h3, h4, h5, _⟩ := KdTree.make_ok h
  obtain ⟨box, hc⟩ := created_of_make h
  have hline := hc.lineTree rfl hR.num (stopOk_of_created hc (by simpa using hn)) (by simp [Ref.optsSliding, KdTree.cfg])
    (fun i hi => hR.points i (List.mem_range.1 hi)) List.nodup_range
    (fun i _ k _ e => by
      rcases lt_trichotomy i k with h | h | h
      · exact absurd e (doubling_lt _ h).ne
      · exact h
      · exact absurd e (doubling_lt _ h).ne') [] [] rfl
  simp only [List.nil_append, List.append_nil] at hline
  have hne : ∀ r ∈ ranges T.data.root, 1 ≤ (slice T.data.indices r.1 r.2).length := by
    intro r hr'
    have := (c20_nonempty h hn (by simp [Ref.optsSliding])).1 r hr'
    have := tiles_mem_le (c16_partition h).2.1 r hr'
    simp only [slice, List.length_take, List.length_drop, hperm.length_eq, List.length_range]
    omega
  have hw := boxFromBounds_within (N := Ref.ratNum) (bounds := .fromSpace) (a := 0)
    (b := ((2 : ℚ) ^ (2 ^ t - 1) - 1) / 2 ^ 2 ^ t) hn
    ⟨le_trans (by norm_num [Ref.ratNum]) hge0, by norm_num [Ref.ratNum]⟩ hp (by simp) 0
  have hin := boxFromBounds_fromSpace_mem Ref.ratNum (doubling ℚ (2 ^ t)) (2 ^ t)
  have hsp := Created.leftSpine_doubling (n := 2 ^ t) rfl rfl (by norm_num [Ref.optsSliding, KdTree.cfg]) (fun x => rfl)
    rfl hc (2 ^ t - 1) (by rw [Nat.sub_add_cancel hn]) (by
      have a1 := (hin 0 hn 0).1
      simp only [doubling, pow_zero, sub_self, zero_div] at a1
      exact le_antisymm a1 hw.1.1) (by
      have a1 := (hin (2 ^ t - 1) (by omega) 0).2
      refine ⟨a1, lt_of_le_of_lt hw.2.2 ?_⟩
      exact div_lt_div_of_pos_right (by linarith) (by positivity))
  have := leftSpine_le_trace (M := metricL2Sq ℚ 1) (q := fun _ => 0) V (fun i => T.metric.dist (fun _ => 0) (T.pts i))
    hline hne (fun i hi => by
      rw [hel] at hi
      exact (hp i (List.mem_range.1 (hperm.subset hi)) 0).1) 0 (fun _ => 0, s)
  rw [hsp, Nat.sub_add_cancel hn] at this
  rw [KdTree.trace, h1, h2]
  rw [h2] at this
  refine lt_of_lt_of_le ?_ this
  rw [Nat.log_pow (by decide)]
  have e : 2 ^ t = 4 * (2 ^ c * 2 ^ c) := by rw [ht, pow_add, two_mul, pow_add]; ring
  have l1 : c + 1 ≤ 2 ^ c := Nat.lt_two_pow_self
  have l2 := Nat.mul_le_mul l1 l1
  rw [e, ht]
  nlinarith

/-- With equal points it is false for every rule: all `n` points are looked at. -/
theorem c116_false (c : Nat) :
    ∃ (n : Nat) (T : KdTree ℚ 2 (Branch1 ℚ 2)) (fuel : Nat),
      KdTree.make (euclideanTag ℚ 2) (metricL2Sq ℚ 2) Ref.ratNum (fun _ => ![1, 2]) n (Ref.optsSliding ℚ 2) fuel = .ok T ∧
      ∀ e nn, 1 ≤ e →
        c * (Nat.log 2 n + 1) < (T.looked ![1, 2] (approxNnVisitor e) (nnInit Ref.ratNum nn)).length := by
  have hn : 0 < 2 ^ (2 * c + 1) := Nat.two_pow_pos _
  obtain ⟨fuel, T, hT⟩ := c22_terminates_partial (n := 2 ^ (2 * c + 1)) (N := Ref.ratNum)
    (pts := fun _ => ![1, 2]) (o := Ref.optsSliding ℚ 2) (euclideanTag ℚ 2) (metricL2Sq ℚ 2)
    (a := 1) (b := 2)
    (splitSafe_field (fun x => by simp only [Ref.ratNum]; ring) (fun x => rfl)
      (by norm_num [Ref.ratNum]))
    (by decide) hn (by simp [Ref.optsSliding])
    (by intro m hm; simp only [Ref.optsSliding, Stop.maxLeafSize.injEq] at hm; subst hm
        exact ⟨le_rfl, by norm_num [Ref.optsSliding]⟩)
    (by intro i _ j; fin_cases j <;> norm_num)
    (by norm_num [Ref.ratNum]) (by simp [Ref.optsSliding])
  have h := hT fuel le_rfl
  refine ⟨_, T, fuel, h, fun e nn he => ?_⟩
  have hR : Representable Ref.ratNum (fun _ => ![1, 2]) (2 ^ (2 * c + 1)) (Ref.optsSliding ℚ 2) :=
    ⟨by norm_num [Ref.ratNum], fun i hi j => by
      unfold InRange
      fin_cases j <;> norm_num [Ref.ratNum], trivial, by simp [Ref.optsSliding]⟩
  rw [(c116_equal_all additive_l2Sq (by simp [metricL2Sq, squared]) h hR hn ![1, 2] (fun _ _ => rfl)
    (by norm_num [Ref.ratNum])).2.1 e nn he, Nat.log_pow (by decide)]
  have l1 : c + 1 ≤ 2 ^ c := Nat.lt_two_pow_self
  have l2 := Nat.mul_le_mul l1 l1
  have e : 2 ^ (2 * c + 1) = 2 * (2 ^ c * 2 ^ c) := by rw [pow_succ, two_mul, pow_add]; ring
  rw [e]
  nlinarith

/-! ## Instances and examples -/

section
variable {α : Type} [Field α] [LinearOrder α] [IsStrictOrderedRing α]

theorem strictLine_l2Sq : StrictLine (metricL2Sq α 1) where
  dist_eq x y := by simp [additive_l2Sq.dist_eq]
  one_strict x y h := by
    have := sq_lt_sq.2 h
    simpa [metricL2Sq, squared, sq] using this
  one_abs x y h := by
    have := (sq_eq_sq_iff_abs_eq_abs x y).2 h
    simpa [metricL2Sq, squared, sq] using this

theorem strictLine_l1 : StrictLine (metricL1 α 1) where
  dist_eq x y := by simp [additive_l1.dist_eq]
  one_strict x y h := by simpa [metricL1, sabs_eq] using h
  one_abs x y h := by simpa [metricL1, sabs_eq] using h

end

/-- Eight places on a line. -/
def line8 : Nat → Pt ℚ 1
  | 0 => ![5]
  | 1 => ![1]
  | 2 => ![9]
  | 3 => ![2]
  | 4 => ![7]
  | 5 => ![14]
  | 6 => ![3]
  | _ => ![11]

/-- The hypotheses of `c116_line_partial` and `c116_median_partial` for eight points in four leaves. The query at the
middle gap opens two leaves for two neighbors and looks at four points. -/
example :
    ∃ T, KdTree.make (euclideanTag ℚ 1) (metricL2Sq ℚ 1) Ref.ratNum line8 8 (Ref.optsMedian ℚ 1) 20 = .ok T ∧
      (∀ i < 8, ∀ k < 8, line8 i 0 = line8 k 0 → i = k) ∧ 8 ≤ 2 * 2 ^ 2 ∧
      (∀ i < 8, (metricL2Sq ℚ 1).dist ![6] (line8 i) < Ref.ratNum.big) ∧
      (∃ s, knnInit Ref.ratNum [⟨0, 0⟩, ⟨0, 0⟩] = .ok s ∧
        (openedOf (T.trace ![6] (knnVisitor Ref.ratNum) s)).length = 2 ∧
        (T.trace ![6] (knnVisitor Ref.ratNum) s).length = 5 ∧
        T.looked ![6] (knnVisitor Ref.ratNum) s = [4, 2, 6, 0]) := by
  obtain ⟨T, h, hp⟩ := Outcome.exists_of_check
    (x := KdTree.make (euclideanTag ℚ 1) (metricL2Sq ℚ 1) Ref.ratNum line8 8 (Ref.optsMedian ℚ 1) 20)
    (p := fun T => match knnInit Ref.ratNum [⟨0, 0⟩, ⟨0, 0⟩] with
      | .ok s => decide ((openedOf (T.trace ![6] (knnVisitor Ref.ratNum) s)).length = 2 ∧
        (T.trace ![6] (knnVisitor Ref.ratNum) s).length = 5 ∧
        T.looked ![6] (knnVisitor Ref.ratNum) s = [4, 2, 6, 0])
      | _ => false) (by decide +kernel)
  refine ⟨T, h, by decide +kernel, by decide, by decide +kernel, ?_⟩
  split at hp
  · rename_i s hs
    exact ⟨s, hs, of_decide_eq_true hp⟩
  · simp at hp

/-- Four doubling points: the query at the first calls `search_nearest` four times for one leaf. -/
example :
    ∃ T, KdTree.make (euclideanTag ℚ 1) (metricL2Sq ℚ 1) Ref.ratNum (doubling ℚ 4) 4 (Ref.optsSliding ℚ 1) 20 = .ok T ∧
      (T.trace ![0] nnVisitor (nnInit Ref.ratNum ⟨0, 0⟩)).length = 4 ∧
      T.looked ![0] nnVisitor (nnInit Ref.ratNum ⟨0, 0⟩) = [0] := by
  obtain ⟨T, h, hp⟩ := Outcome.exists_of_check
    (x := KdTree.make (euclideanTag ℚ 1) (metricL2Sq ℚ 1) Ref.ratNum (doubling ℚ 4) 4 (Ref.optsSliding ℚ 1) 20)
    (p := fun T => decide ((T.trace ![0] nnVisitor (nnInit Ref.ratNum ⟨0, 0⟩)).length = 4 ∧
      T.looked ![0] nnVisitor (nnInit Ref.ratNum ⟨0, 0⟩) = [0])) (by decide +kernel)
  exact ⟨T, h, of_decide_eq_true hp⟩

/-- Three equal points and the median rule: all are looked at with the error ratio 100. -/
example :
    ∃ T, KdTree.make (euclideanTag ℚ 2) (metricL2Sq ℚ 2) Ref.ratNum (fun _ => ![1, 2]) 3 (Ref.optsMedian ℚ 2) 20 = .ok T ∧
      (T.looked ![1, 2] (approxNnVisitor 100) (nnInit Ref.ratNum ⟨0, 0⟩)).length = 3 := by
  obtain ⟨T, h, hp⟩ := Outcome.exists_of_check
    (x := KdTree.make (euclideanTag ℚ 2) (metricL2Sq ℚ 2) Ref.ratNum (fun _ => ![1, 2]) 3 (Ref.optsMedian ℚ 2) 20)
    (p := fun T => decide ((T.looked ![1, 2] (approxNnVisitor 100) (nnInit Ref.ratNum ⟨0, 0⟩)).length = 3))
    (by decide +kernel)
  exact ⟨T, h, of_decide_eq_true hp⟩

end Pico.Props
