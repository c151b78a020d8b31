import Verif.Proof.Euclid

/-! # Exactness of the traversal for metrics on products of lines and circles -/

set_option linter.unusedSectionVars false

namespace Pico

section
variable {α : Type} [LinearOrder α] [Zero α] [One α] [Add α] [Sub α] [Neg α] {d : Nat}

/-- Coordinates on circle axes are in `[0, 1]`: those of the points, of the query, and of given
start bounds if the midpoint rule is used. -/
structure CircleOk (space : Fin d → OneSpace) (pts : Nat → Pt α d) (n : Nat) (o : BuildOpts α d)
    (q : Pt α d) : Prop where
  points : ∀ i < n, ∀ j, space j = .s1 → 0 ≤ pts i j ∧ pts i j ≤ 1
  query : ∀ j, space j = .s1 → 0 ≤ q j ∧ q j ≤ 1
  bounds : o.rule = .midpoint → ∀ mn mx, o.bounds = .given mn mx → ∀ j, space j = .s1 →
    (0 ≤ mn j ∧ mn j ≤ 1) ∧ (0 ≤ mx j ∧ mx j ≤ 1)

/-- The topological traversal: every skipped child is at least as far along its axis as the code computes. -/
theorem guard_topo {M : Metric α d} (f : Fin d → α → α → α)
    (hf : ∀ dim mn mx v p, (M.space dim = .s1 → 0 ≤ mn ∧ mx ≤ 1 ∧ 0 ≤ v ∧ v ≤ 1) → mn ≤ p ∧ p ≤ mx →
      boxDistance M mn mx v dim ≤ f dim v p)
    {C : BuildCfg α d (Branch2 α d)} (hC : C.setBranch = setBranchTopological)
    (hN : C.N.low ≤ C.N.big) (hm : C.rule = .midpoint → MidOk C.N) (q : Pt α d)
    (hq : ∀ j, M.space j = .s1 → 0 ≤ q j ∧ q j ≤ 1)
    (h01 : ∀ j, M.space j = .s1 → C.N.low ≤ 1 ∧ 0 ≤ C.N.big)
    {depth : Int} {o : Nat} {seg : List Nat} {box : Box α d} {t : Tree (Branch2 α d)}
    {seg' : List Nat} {box' : Box α d} (h : Created C depth o seg box t seg' box')
    (hp : ∀ i ∈ seg, ∀ j, InRange C.N (C.pts i j))
    (hpc : ∀ i ∈ seg, ∀ j, M.space j = .s1 → 0 ≤ C.pts i j ∧ C.pts i j ≤ 1)
    (hb : C.rule = .midpoint → CellOk C.N box)
    (hbc : C.rule = .midpoint → ∀ j, M.space j = .s1 → 0 ≤ box.min j ∧ box.max j ≤ 1)
    (pre post : List Nat) (ho : o = pre.length) :
    Guard (topologicalTag α d).splitDim ((topologicalTag α d).pick M q) (pre ++ (seg' ++ post))
      (fun j i => f j (q j) (C.pts i j)) t := by
  induction h generalizing pre post with
  | leaf hl => trivial
  | @branch depth o seg box sp l r segL segR boxL boxR hl hs hL hR ih1 ih2 =>
    have hmem := splitter_mem hs
    have hpL : ∀ i ∈ sp.seg.take sp.pos, ∀ j, InRange C.N (C.pts i j) := fun i hi => hp i (hmem.1 i hi)
    have hpR : ∀ i ∈ sp.seg.drop sp.pos, ∀ j, InRange C.N (C.pts i j) := fun i hi => hp i (hmem.2 i hi)
    have hpcL := fun i hi => hpc i (hmem.1 i hi)
    have hpcR := fun i hi => hpc i (hmem.2 i hi)
    have hbL : C.rule = .midpoint → CellOk C.N (box.setMax sp.dim sp.val) :=
      fun hr => (cellOk_split (hm hr) hr hs (hb hr)).2.2.1
    have hbR : C.rule = .midpoint → CellOk C.N (box.setMin sp.dim sp.val) :=
      fun hr => (cellOk_split (hm hr) hr hs (hb hr)).2.2.2
    have hbcL : C.rule = .midpoint → ∀ j, M.space j = .s1 →
        0 ≤ (box.setMax sp.dim sp.val).min j ∧ (box.setMax sp.dim sp.val).max j ≤ 1 := by
      intro hr j hj
      have h1 := hbc hr j hj
      have h2 := cellOk_split (hm hr) hr hs (hb hr)
      refine ⟨h1.1, ?_⟩
      by_cases hjd : j = sp.dim
      · subst hjd; simpa [Box.setMax] using h2.2.1.trans h1.2
      · simpa [Box.setMax, Function.update, hjd] using h1.2
    have hbcR : C.rule = .midpoint → ∀ j, M.space j = .s1 →
        0 ≤ (box.setMin sp.dim sp.val).min j ∧ (box.setMin sp.dim sp.val).max j ≤ 1 := by
      intro hr j hj
      have h1 := hbc hr j hj
      have h2 := cellOk_split (hm hr) hr hs (hb hr)
      refine ⟨?_, h1.2⟩
      by_cases hjd : j = sp.dim
      · subst hjd; simpa [Box.setMin] using h1.1.trans h2.1
      · simpa [Box.setMin, Function.update, hjd] using h1.1
    have BL := hL.built hN hm hpL hbL
    have BR := hR.built hN hm hpR hbR
    have hpos : sp.pos = segL.length := by
      rw [hL.perm.length_eq, splitter_take_length hs]
    have hel := BL.elems_eq pre (segR ++ post) ho
    have her := BR.elems_eq (pre ++ segL) post (by simp [ho, hpos])
    have g1 := ih1 hpL hpcL hbL hbcL pre (segR ++ post) ho
    have g2 := ih2 hpR hpcR hbR hbcR (pre ++ segL) post (by simp [ho, hpos])
    simp only [List.append_assoc] at hel her g1 g2 ⊢
    refine ⟨?_, g1, g2⟩
    intro i hi
    simp only [topologicalTag, pickTopological, hC, setBranchTopological] at hi ⊢
    have hcirc : M.space sp.dim = .s1 → (0 ≤ boxL.min sp.dim ∧ boxL.max sp.dim ≤ 1) ∧
        (0 ≤ boxR.min sp.dim ∧ boxR.max sp.dim ≤ 1) := by
      intro hsd
      refine ⟨⟨?_, ?_⟩, ?_, ?_⟩
      · exact hL.le_min hm sp.dim 0 (h01 _ hsd).2 (fun i hi => (hpcL i hi _ hsd).1)
          (fun hr => ⟨hbL hr, (hbcL hr _ hsd).1⟩)
      · exact hL.max_le hm sp.dim 1 (h01 _ hsd).1 (fun i hi => (hpcL i hi _ hsd).2)
          (fun hr => ⟨hbL hr, (hbcL hr _ hsd).2⟩)
      · exact hR.le_min hm sp.dim 0 (h01 _ hsd).2 (fun i hi => (hpcR i hi _ hsd).1)
          (fun hr => ⟨hbR hr, (hbcR hr _ hsd).1⟩)
      · exact hR.max_le hm sp.dim 1 (h01 _ hsd).1 (fun i hi => (hpcR i hi _ hsd).2)
          (fun hr => ⟨hbR hr, (hbcR hr _ hsd).2⟩)
    by_cases hc : boxDistance M (boxL.min sp.dim) (boxL.max sp.dim) (q sp.dim) sp.dim <
        boxDistance M (boxR.min sp.dim) (boxR.max sp.dim) (q sp.dim) sp.dim
    · simp only [if_pos hc, if_true] at hi ⊢
      rw [her] at hi
      exact hf _ _ _ _ _ (fun hsd => ⟨(hcirc hsd).2.1, (hcirc hsd).2.2, hq _ hsd⟩)
        (BR.mem i hi sp.dim)
    · simp only [if_neg hc, Bool.false_eq_true, if_false] at hi ⊢
      rw [hel] at hi
      exact hf _ _ _ _ _ (fun hsd => ⟨(hcirc hsd).1.1, (hcirc hsd).1.2, hq _ hsd⟩)
        (BL.mem i hi sp.dim)

/-- The guard of a finished tree. -/
theorem guard_make {M : Metric α d} (f : Fin d → α → α → α)
    (hf : ∀ dim mn mx v p, (M.space dim = .s1 → 0 ≤ mn ∧ mx ≤ 1 ∧ 0 ≤ v ∧ v ≤ 1) → mn ≤ p ∧ p ≤ mx →
      boxDistance M mn mx v dim ≤ f dim v p) {N : Num α}
    {pts : Nat → Pt α d} {n : Nat} {o : BuildOpts α d} {fuel : Nat} {T : KdTree α d (Branch2 α d)}
    (h : KdTree.make (topologicalTag α d) M N pts n o fuel = .ok T) (hR : Representable N pts n o)
    (hn : 0 < n) (q : Pt α d) (hc : CircleOk M.space pts n o q) :
    Guard (topologicalTag α d).splitDim ((topologicalTag α d).pick M q) T.data.indices
      (fun j i => f j (q j) (pts i j)) T.data.root := by
  obtain ⟨h1, h2, h3, h4, h5, hb⟩ := KdTree.make_ok h
  have h01 : ∀ j, M.space j = .s1 → N.low ≤ 1 ∧ 0 ≤ N.big := by
    intro j hj
    have h6 := hR.points 0 hn j
    have h7 := hc.points 0 hn j hj
    exact ⟨h6.1.trans h7.2, h7.1.trans h6.2⟩
  have hcell := boxFromBounds_cellOk (d := d) hn hR.points hR.bounds
  have hcb : o.rule = .midpoint → ∀ j, M.space j = .s1 →
      0 ≤ (boxFromBounds N pts n o.bounds).min j ∧ (boxFromBounds N pts n o.bounds).max j ≤ 1 := by
    intro hr j hj
    cases hbd : o.bounds with
    | fromSpace =>
      exact ⟨(foldl_fitPt_min pts _ _ j _).2 ⟨(h01 j hj).2, fun i hi =>
          (hc.points i (List.mem_range.1 hi) j hj).1⟩,
        (foldl_fitPt_max pts _ _ j _).2 ⟨(h01 j hj).1, fun i hi =>
          (hc.points i (List.mem_range.1 hi) j hj).2⟩⟩
    | given mn mx =>
      have := hc.bounds hr mn mx hbd j hj
      rw [boxFromBounds_given_min, boxFromBounds_given_max]
      exact ⟨le_min (le_min (h01 j hj).2 this.1.1) this.2.1,
        max_le (max_le (h01 j hj).1 this.1.2) this.2.2⟩
  obtain ⟨_, box, hcreated⟩ := buildTree_created hb
  have hg := guard_topo f hf (C := KdTree.cfg (topologicalTag α d) N pts o) rfl hR.num hR.mid q
    hc.query h01 hcreated (fun i hi => hR.points i (List.mem_range.1 hi))
    (fun i hi => hc.points i (List.mem_range.1 hi)) (fun _ => hcell) hcb [] [] rfl
  simp only [List.nil_append, List.append_nil] at hg
  exact hg

end

section
variable {α : Type} [CommRing α] [LinearOrder α] [IsStrictOrderedRing α] {d : Nat}

/-- Distance along one axis. -/
def axisDistance (s : OneSpace) (x y : α) : α :=
  match s with
  | .r1 => |x - y|
  | .s1 => Spec.circle x y

/-- Topological metrics that are a sum over the axes of a monotone non-negative function of the line
or circle distance: `metric_so2`, `metric_se2_squared`, and the torus metric of
kd_tree_custom_metric.cpp. -/
structure TopologicalAdditive (M : Metric α d) : Prop where
  one_nonneg : ∀ x, 0 ≤ x → 0 ≤ M.one x
  one_mono : ∀ x y, 0 ≤ x → x ≤ y → M.one x ≤ M.one y
  dist_eq : ∀ x y, (∀ j, M.space j = .s1 → (0 ≤ x j ∧ x j ≤ 1) ∧ (0 ≤ y j ∧ y j ≤ 1)) →
    M.dist x y = ∑ j, M.one (axisDistance (M.space j) (x j) (y j))

theorem s1Distance_eq (x y : α) : s1Distance x y = Spec.circle x y := by
  unfold s1Distance Spec.circle
  rw [stdMin_eq, sabs_eq]

theorem circle_nonneg {x y : α} (hx : 0 ≤ x ∧ x ≤ 1) (hy : 0 ≤ y ∧ y ≤ 1) : 0 ≤ Spec.circle x y := by
  unfold Spec.circle
  refine le_min (abs_nonneg _) ?_
  have : |x - y| ≤ 1 := abs_le.2 ⟨by linarith [hx.1, hy.2], by linarith [hx.2, hy.1]⟩
  linarith

theorem circle_comm (x y : α) : Spec.circle x y = Spec.circle y x := by
  unfold Spec.circle
  rw [abs_sub_comm]

/-- The distance to a segment of the circle is a lower bound of the distance to its points. -/
theorem segment_s1_le {mn mx v p : α} (h0 : 0 ≤ mn) (h1 : mx ≤ 1) (hv : 0 ≤ v ∧ v ≤ 1)
    (hp : mn ≤ p ∧ p ≤ mx) :
    0 ≤ Segment.s1Distance ⟨mn, mx⟩ v ∧ Segment.s1Distance ⟨mn, mx⟩ v ≤ Spec.circle v p := by
  obtain ⟨hv0, hv1⟩ := hv
  obtain ⟨hp0, hp1⟩ := hp
  have hmm : mn ≤ mx := hp0.trans hp1
  have hmn : 0 ≤ mn ∧ mn ≤ 1 := ⟨h0, hmm.trans h1⟩
  have hmx : 0 ≤ mx ∧ mx ≤ 1 := ⟨h0.trans hmm, h1⟩
  have hp01 : 0 ≤ p ∧ p ≤ 1 := ⟨h0.trans hp0, hp1.trans h1⟩
  unfold Segment.s1Distance Segment.s1Linear
  simp only [hmm, decide_true, if_true]
  unfold Segment.s1DistanceMinMax
  simp only [Bool.or_eq_true, decide_eq_true_eq]
  split_ifs with hc
  · rw [stdMin_eq, s1Distance_eq, s1Distance_eq]
    refine ⟨le_min (circle_nonneg ⟨hv0, hv1⟩ hmn) (circle_nonneg ⟨hv0, hv1⟩ hmx), ?_⟩
    unfold Spec.circle
    rcases hc with hc | hc
    · rw [abs_of_neg (by linarith : v - mn < 0), abs_of_neg (by linarith : v - mx < 0),
        abs_of_neg (by linarith : v - p < 0)]
      refine le_min ?_ ?_
      · exact (min_le_left _ _).trans ((min_le_left _ _).trans (by linarith))
      · exact (min_le_right _ _).trans ((min_le_right _ _).trans (by linarith))
    · rw [abs_of_nonneg (by linarith : 0 ≤ v - mn), abs_of_nonneg (by linarith : 0 ≤ v - mx),
        abs_of_nonneg (by linarith : 0 ≤ v - p)]
      refine le_min ?_ ?_
      · exact (min_le_right _ _).trans ((min_le_left _ _).trans (by linarith))
      · exact (min_le_left _ _).trans ((min_le_right _ _).trans (by linarith))
  · exact ⟨le_rfl, circle_nonneg ⟨hv0, hv1⟩ hp01⟩

theorem segment_r1_le {mn mx v p : α} (hp : mn ≤ p ∧ p ≤ mx) :
    0 ≤ Segment.r1Distance ⟨mn, mx⟩ v ∧ Segment.r1Distance ⟨mn, mx⟩ v ≤ |v - p| := by
  unfold Segment.r1Distance
  dsimp only
  split_ifs with h1 h2
  · refine ⟨by linarith, ?_⟩
    rw [abs_of_neg (by linarith [hp.1])]
    linarith [hp.1]
  · refine ⟨by linarith, ?_⟩
    rw [abs_of_pos (by linarith [hp.2])]
    linarith [hp.2]
  · exact ⟨le_rfl, abs_nonneg _⟩

theorem boxDistance_le {M : Metric α d} (hM : TopologicalAdditive M) {mn mx v p : α} {dim : Fin d}
    (hs : M.space dim = .s1 → 0 ≤ mn ∧ mx ≤ 1 ∧ 0 ≤ v ∧ v ≤ 1) (hp : mn ≤ p ∧ p ≤ mx) :
    boxDistance M mn mx v dim ≤ M.one (axisDistance (M.space dim) v p) := by
  unfold boxDistance axisDistance
  cases h : M.space dim with
  | r1 =>
    have := segment_r1_le (v := v) hp
    exact hM.one_mono _ _ this.1 this.2
  | s1 =>
    obtain ⟨h0, h1, h2, h3⟩ := hs h
    have := segment_s1_le h0 h1 ⟨h2, h3⟩ hp
    exact hM.one_mono _ _ this.1 this.2

/-- The guard for topological additive metrics. -/
theorem guardAt_topological {M : Metric α d} (hM : TopologicalAdditive M) {N : Num α}
    {pts : Nat → Pt α d} {n : Nat} {o : BuildOpts α d} {fuel : Nat} {T : KdTree α d (Branch2 α d)}
    (h : KdTree.make (topologicalTag α d) M N pts n o fuel = .ok T) (hR : Representable N pts n o)
    (hn : 0 < n) (q : Pt α d) (hc : CircleOk M.space pts n o q) :
    GuardAt T q (fun j i => M.one (axisDistance (M.space j) (q j) (pts i j))) := by
  obtain ⟨hperm, _, _, hel⟩ := KdTree.make_built h hR hn
  obtain ⟨h1, h2, h3, h4, h5, hb⟩ := KdTree.make_ok h
  have hg := guard_make (fun j x y => M.one (axisDistance (M.space j) x y))
    (fun dim mn mx v p hs hp => boxDistance_le hM hs hp) h hR hn q hc
  refine ⟨?_, ?_, by rw [h5]; exact hperm, hel, ?_⟩
  · intro i hi
    rw [h5] at hi
    rw [h2, h4]
    exact hM.dist_eq _ _ fun j hj => ⟨hc.query j hj, hc.points i hi j hj⟩
  · intro i hi j
    rw [h5] at hi
    apply hM.one_nonneg
    unfold axisDistance
    cases hsp : M.space j with
    | r1 => exact abs_nonneg _
    | s1 => exact circle_nonneg (hc.query j hsp) (hc.points i hi j hsp)
  · rw [h1, h2]
    exact hg

/-- Exactness for topological additive metrics. -/
theorem exactAt_topological {M : Metric α d} (hM : TopologicalAdditive M) {N : Num α}
    {pts : Nat → Pt α d} {n : Nat} {o : BuildOpts α d} {fuel : Nat} {T : KdTree α d (Branch2 α d)}
    (h : KdTree.make (topologicalTag α d) M N pts n o fuel = .ok T) (hR : Representable N pts n o)
    (hn : 0 < n) (q : Pt α d) (hc : CircleOk M.space pts n o q) : ExactAt T q :=
  (guardAt_topological hM h hR hn q hc).exactAt

theorem topological_so2 : TopologicalAdditive (metricSO2 α) where
  one_nonneg x h := by simp only [metricSO2, sabs_eq]; exact abs_nonneg x
  one_mono x y h0 h := by
    simp only [metricSO2, sabs_eq]
    rwa [abs_of_nonneg h0, abs_of_nonneg (h0.trans h)]
  dist_eq x y h := by
    have := h 0 rfl
    simp only [metricSO2, Fin.sum_univ_one, sabs_eq, axisDistance, s1Distance_eq]
    exact (abs_of_nonneg (circle_nonneg this.1 this.2)).symm

theorem topological_se2 : TopologicalAdditive (metricSE2Sq α) where
  one_nonneg x h := mul_self_nonneg x
  one_mono x y h0 h := mul_self_le_mul_self h0 h
  dist_eq x y _ := by
    rw [Fin.sum_univ_three]
    simp only [metricSE2Sq, squaredR1Distance, squaredS1Distance, squared, s1Distance_eq, axisDistance,
      zero_add]
    simp

theorem topological_t2 : TopologicalAdditive (metricT2Sq α d) where
  one_nonneg x h := mul_self_nonneg x
  one_mono x y h0 h := mul_self_le_mul_self h0 h
  dist_eq x y _ := by
    simp only [metricT2Sq, loopSum_eq, squaredS1Distance, s1Distance_eq, axisDistance]

end

end Pico
