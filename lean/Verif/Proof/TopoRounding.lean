import Verif.Proof.Topo
import Verif.Proof.Grid

/-!
# Circles in rounded arithmetic

The distance to a segment of a line or a circle stays a lower bound of the computed distances to its points.
-/

set_option linter.unusedSectionVars false

namespace Pico

section
variable {α : Type} [LinearOrder α] [Zero α] [One α] [Add α] [Sub α] [Neg α] {d : Nat}

/-- The computed distance along one axis. -/
def computedAxis (s : OneSpace) (x y : α) : α :=
  match s with
  | .r1 => sabs (x - y)
  | .s1 => s1Distance x y

/-- The laws of `1`. -/
structure CircleLaws (α : Type) [LinearOrder α] [Zero α] [One α] [Add α] [Sub α] [Neg α] : Prop
    extends RoundedLaws α where
  one_sub_zero : (1 : α) - 0 ≤ 1

/-- Metrics on products of lines and circles whose contributions are monotone. -/
structure TopoMetric (M : Metric α d) : Prop where
  one_zero : M.one 0 = 0
  one_mono : ∀ x y, 0 ≤ x → x ≤ y → M.one x ≤ M.one y

theorem TopoMetric.one_nonneg {M : Metric α d} (hM : TopoMetric M) {x : α} (h : 0 ≤ x) : 0 ≤ M.one x := by
  rw [← hM.one_zero]; exact hM.one_mono _ _ le_rfl h

variable (L : CircleLaws α)
include L

theorem CircleLaws.sub_nonneg {a b : α} (h : a ≤ b) : 0 ≤ b - a := by
  rw [← L.sub_self a]; exact L.sub_mono _ _ _ _ h le_rfl

theorem CircleLaws.sabs_of_le {a b : α} (h : a ≤ b) : sabs (a - b) = b - a ∧ sabs (b - a) = b - a := by
  have h1 := L.sub_nonneg h
  have e : sabs (b - a) = b - a := by unfold sabs; rw [if_neg (not_lt.2 h1)]
  exact ⟨by have := (axis_l1 (d := 1) L.toRoundedLaws).symm a b; exact this.trans e, e⟩

theorem CircleLaws.sabs_nonneg (a b : α) : 0 ≤ sabs (a - b) :=
  (axis_l1 (d := 1) L.toRoundedLaws).nonneg (a - b)

theorem CircleLaws.sub_le_one {a b : α} (ha : 0 ≤ a) (hb : b ≤ 1) : b - a ≤ 1 :=
  (L.sub_mono _ _ _ _ hb ha).trans L.one_sub_zero

theorem CircleLaws.sabs_le_one {a b : α} (ha : 0 ≤ a ∧ a ≤ 1) (hb : 0 ≤ b ∧ b ≤ 1) : sabs (a - b) ≤ 1 := by
  rcases le_total a b with h | h
  · rw [(L.sabs_of_le h).1]; exact L.sub_le_one ha.1 hb.2
  · rw [(L.sabs_of_le h).2]; exact L.sub_le_one hb.1 ha.2

theorem stdMin_le_left (a b : α) : stdMin a b ≤ a := by
  unfold stdMin; split_ifs with h
  · exact h.le
  · exact le_rfl

theorem stdMin_le_right (a b : α) : stdMin a b ≤ b := by
  unfold stdMin; split_ifs with h
  · exact le_rfl
  · exact not_lt.1 h

theorem le_stdMin {a b c : α} (h1 : c ≤ a) (h2 : c ≤ b) : c ≤ stdMin a b := by
  unfold stdMin; split_ifs
  · exact h2
  · exact h1

theorem CircleLaws.s1_nonneg {a b : α} (ha : 0 ≤ a ∧ a ≤ 1) (hb : 0 ≤ b ∧ b ≤ 1) : 0 ≤ s1Distance a b :=
  le_stdMin L (L.sabs_nonneg a b) (L.sub_nonneg (L.sabs_le_one ha hb))

/-- Lower bound on a segment of the circle. -/
theorem CircleLaws.segment_s1 {mn mx v p : α} (h0 : 0 ≤ mn) (h1 : mx ≤ 1) (hv : 0 ≤ v ∧ v ≤ 1)
    (hp : mn ≤ p ∧ p ≤ mx) :
    0 ≤ Segment.s1Distance ⟨mn, mx⟩ v ∧ Segment.s1Distance ⟨mn, mx⟩ v ≤ s1Distance v p := by
  obtain ⟨hp0, hp1⟩ := hp
  have hmm : mn ≤ mx := hp0.trans hp1
  have hmn : 0 ≤ mn ∧ mn ≤ 1 := ⟨h0, hmm.trans h1⟩
  have hmx : 0 ≤ mx ∧ mx ≤ 1 := ⟨h0.trans hmm, h1⟩
  have hp01 : 0 ≤ p ∧ p ≤ 1 := ⟨h0.trans hp0, hp1.trans h1⟩
  unfold Segment.s1Distance Segment.s1Linear
  simp only [hmm, decide_true, if_true]
  unfold Segment.s1DistanceMinMax
  simp only [Bool.or_eq_true, decide_eq_true_eq]
  split_ifs with hc
  · refine ⟨le_stdMin L (L.s1_nonneg hv hmn) (L.s1_nonneg hv hmx), ?_⟩
    rcases hc with hc | hc
    · have e1 := (L.sabs_of_le hc.le).1
      have e2 := (L.sabs_of_le (hc.le.trans hmm)).1
      have e3 := (L.sabs_of_le (hc.le.trans hp0)).1
      unfold s1Distance
      rw [e1, e2, e3]
      refine le_stdMin L ?_ ?_
      · exact (stdMin_le_left L _ _).trans ((stdMin_le_left L _ _).trans (L.sub_mono _ _ _ _ hp0 le_rfl))
      · exact (stdMin_le_right L _ _).trans ((stdMin_le_right L _ _).trans
          (L.sub_mono _ _ _ _ le_rfl (L.sub_mono _ _ _ _ hp1 le_rfl)))
    · have e1 := (L.sabs_of_le (hmm.trans hc.le)).2
      have e2 := (L.sabs_of_le hc.le).2
      have e3 := (L.sabs_of_le (hp1.trans hc.le)).2
      unfold s1Distance
      rw [e1, e2, e3]
      refine le_stdMin L ?_ ?_
      · exact (stdMin_le_right L _ _).trans ((stdMin_le_left L _ _).trans (L.sub_mono _ _ _ _ le_rfl hp1))
      · exact (stdMin_le_left L _ _).trans ((stdMin_le_right L _ _).trans
          (L.sub_mono _ _ _ _ le_rfl (L.sub_mono _ _ _ _ le_rfl hp0)))
  · exact ⟨le_rfl, L.s1_nonneg hv hp01⟩

/-- Lower bound on a segment of the line. -/
theorem CircleLaws.segment_r1 {mn mx v p : α} (hp : mn ≤ p ∧ p ≤ mx) :
    0 ≤ Segment.r1Distance ⟨mn, mx⟩ v ∧ Segment.r1Distance ⟨mn, mx⟩ v ≤ sabs (v - p) := by
  unfold Segment.r1Distance
  dsimp only
  split_ifs with h1 h2
  · refine ⟨L.sub_nonneg h1.le, ?_⟩
    rw [(L.sabs_of_le (h1.le.trans hp.1)).1]
    exact L.sub_mono _ _ _ _ hp.1 le_rfl
  · have h2' : mx ≤ v := le_of_lt h2
    refine ⟨L.sub_nonneg h2', ?_⟩
    rw [(L.sabs_of_le (hp.2.trans h2')).2]
    exact L.sub_mono _ _ _ _ le_rfl hp.2
  · exact ⟨le_rfl, L.sabs_nonneg _ _⟩

theorem CircleLaws.boxDistance_le {M : Metric α d} (hM : TopoMetric M) (dim : Fin d) (mn mx v p : α)
    (hs : M.space dim = .s1 → 0 ≤ mn ∧ mx ≤ 1 ∧ 0 ≤ v ∧ v ≤ 1) (hp : mn ≤ p ∧ p ≤ mx) :
    boxDistance M mn mx v dim ≤ M.one (computedAxis (M.space dim) v p) := by
  unfold boxDistance computedAxis
  cases h : M.space dim with
  | r1 =>
    have := L.segment_r1 (v := v) hp
    exact hM.one_mono _ _ this.1 this.2
  | s1 =>
    obtain ⟨h0, h1, h2, h3⟩ := hs h
    have := L.segment_s1 h0 h1 ⟨h2, h3⟩ hp
    exact hM.one_mono _ _ this.1 this.2

/-- What the code computes for a box is zero or the contribution of one of its sides. -/
theorem CircleLaws.boxDistance_cases {M : Metric α d} (hM : TopoMetric M) (dim : Fin d) {mn mx v : α}
    (hmm : mn ≤ mx) :
    boxDistance M mn mx v dim = 0 ∨ boxDistance M mn mx v dim = M.one (computedAxis (M.space dim) v mn) ∨
      boxDistance M mn mx v dim = M.one (computedAxis (M.space dim) v mx) := by
  unfold boxDistance computedAxis
  cases h : M.space dim with
  | r1 =>
    dsimp only
    unfold Segment.r1Distance
    dsimp only
    split_ifs with h1 h2
    · exact .inr (.inl (by rw [(L.sabs_of_le h1.le).1]))
    · exact .inr (.inr (by rw [(L.sabs_of_le (le_of_lt h2)).2]))
    · exact .inl hM.one_zero
  | s1 =>
    dsimp only
    unfold Segment.s1Distance Segment.s1Linear
    simp only [hmm, decide_true, if_true]
    unfold Segment.s1DistanceMinMax
    simp only [Bool.or_eq_true, decide_eq_true_eq]
    split_ifs with hc
    · unfold stdMin
      split_ifs
      · exact .inr (.inr rfl)
      · exact .inr (.inl rfl)
    · exact .inl hM.one_zero

omit L in
/-- The second child is entered with zero or the contribution of a coordinate of a point. -/
theorem Created.guardCoordTopo (L : CircleLaws α) {C : BuildCfg α d (Branch2 α d)}
    (hset : C.setBranch = setBranchTopological)
    (hN : C.N.low ≤ C.N.big) (hr : C.rule ≠ .midpoint) {M : Metric α d} (hM : TopoMetric M) (q : Pt α d)
    {depth : Int} {o : Nat}
    {seg : List Nat} {box : Box α d} {t : Tree (Branch2 α d)} {seg' : List Nat} {box' : Box α d}
    (h : Created C depth o seg box t seg' box') {n : Nat} (hlt : ∀ i ∈ seg, i < n)
    (hp : ∀ i < n, ∀ j, InRange C.N (C.pts i j)) (pre post : List Nat) (ho : o = pre.length) :
    GuardBy ((topologicalTag α d).pick M q) (pre ++ (seg' ++ post))
      (fun data _ => ((topologicalTag α d).pick M q data).2 = 0 ∨
        ∃ k < n, ((topologicalTag α d).pick M q data).2 =
          M.one (computedAxis (M.space data.splitDim) (q data.splitDim) (C.pts k data.splitDim))) t := by
  induction h generalizing pre post with
  | leaf _ => trivial
  | @branch depth o seg box sp l r segL segR boxL boxR hl hs hL hR ih1 ih2 =>
    have hmem := splitter_mem hs
    have hltL : ∀ i ∈ sp.seg.take sp.pos, i < n := fun i hi => hlt i (hmem.1 i hi)
    have hltR : ∀ i ∈ sp.seg.drop sp.pos, i < n := fun i hi => hlt i (hmem.2 i hi)
    have hlen : segL.length = sp.pos := by rw [hL.perm.length_eq]; exact splitter_take_length hs
    have bL := hL.built hN (fun h => absurd h hr) (fun i hi => hp i (hltL i hi)) (fun h => absurd h hr)
    have bR := hR.built hN (fun h => absurd h hr) (fun i hi => hp i (hltR i hi)) (fun h => absurd h hr)
    have hel := bL.elems_eq pre (segR ++ post) ho
    have her := bR.elems_eq (pre ++ segL) post (by simp [ho, hlen])
    have g1 := ih1 hltL pre (segR ++ post) ho
    have g2 := ih2 hltR (pre ++ segL) post (by simp [ho, hlen])
    have hL' : ∀ i ∈ segL, i < n := fun i hi => hltL i (hL.perm.subset hi)
    have hR' : ∀ i ∈ segR, i < n := fun i hi => hltR i (hR.perm.subset hi)
    have key : ∀ (sg : List Nat) (bx : Box α d), Corners C.N C.pts sg bx → (∀ i ∈ sg, i < n) →
        (∀ i ∈ sg, bx.Mem (C.pts i)) → ∀ i ∈ sg,
        boxDistance M (bx.min sp.dim) (bx.max sp.dim) (q sp.dim) sp.dim = 0 ∨
        ∃ k < n, boxDistance M (bx.min sp.dim) (bx.max sp.dim) (q sp.dim) sp.dim =
          M.one (computedAxis (M.space sp.dim) (q sp.dim) (C.pts k sp.dim)) := by
      intro sg bx hco hln hme i hi
      obtain ⟨⟨a, ha, ea⟩, b, hb, eb⟩ := hco.exists (fun i hi => hp i (hln i hi)) hme
        (List.ne_nil_of_mem hi) sp.dim
      rcases L.boxDistance_cases hM sp.dim (v := q sp.dim)
        (((hme i hi) sp.dim).1.trans ((hme i hi) sp.dim).2) with e | e | e
      · exact .inl e
      · exact .inr ⟨a, hln a ha, by rw [← ea]; exact e⟩
      · exact .inr ⟨b, hln b hb, by rw [← eb]; exact e⟩
    simp only [List.append_assoc] at hel her g1 g2 ⊢
    refine ⟨?_, g1, g2⟩
    intro i hi
    simp only [topologicalTag, pickTopological, hset, setBranchTopological] at hi ⊢
    by_cases hc : boxDistance M (boxL.min sp.dim) (boxL.max sp.dim) (q sp.dim) sp.dim <
        boxDistance M (boxR.min sp.dim) (boxR.max sp.dim) (q sp.dim) sp.dim
    · simp only [if_pos hc, if_true] at hi ⊢
      rw [her] at hi
      exact key segR boxR (hR.corners hr) hR' bR.mem i hi
    · simp only [if_neg hc, Bool.false_eq_true, if_false] at hi ⊢
      rw [hel] at hi
      exact key segL boxL (hL.corners hr) hL' bL.mem i hi

omit L in
/-- One circle: exact under rounding, with respect to the computed distances. -/
theorem exactAt_circle (L : CircleLaws α) {M : Metric α 1} (hM : TopoMetric M) (hs : ∀ j, M.space j = .s1)
    {N : Num α} {pts : Nat → Pt α 1} {n : Nat} {o : BuildOpts α 1} {fuel : Nat} {T : KdTree α 1 (Branch2 α 1)}
    (hdist : ∀ x y, (0 ≤ x 0 ∧ x 0 ≤ 1) → (0 ≤ y 0 ∧ y 0 ≤ 1) → M.dist x y = M.one (s1Distance (x 0) (y 0)))
    (h : KdTree.make (topologicalTag α 1) M N pts n o fuel = .ok T) (hR : Representable N pts n o)
    (hn : 0 < n) (q : Pt α 1) (hc : CircleOk M.space pts n o q) : ExactAt T q := by
  obtain ⟨hperm, _, _, hel⟩ := KdTree.make_built h hR hn
  obtain ⟨h1, h2, h3, h4, h5, hb⟩ := KdTree.make_ok h
  have hg := guard_make (fun j x y => M.one (computedAxis (M.space j) x y))
    (fun dim mn mx v p hs hp => L.boxDistance_le hM dim mn mx v p hs hp) h hR hn q hc
  intro σ V Inv s hV hI
  have hlt : ∀ i ∈ T.data.root.elems T.data.indices, i < T.n := by
    intro i hi
    rw [hel] at hi
    rw [h5]
    exact List.mem_range.1 (hperm.subset hi)
  have hterm : ∀ i, computedAxis (M.space 0) (q 0) (pts i 0) = s1Distance (q 0) (pts i 0) := by
    intro i; rw [hs 0]; rfl
  obtain ⟨vis, skip, hp, he, hk⟩ := searchNearest_spec T.tag.splitDim (T.tag.pick T.metric q) V
    (fun i => T.metric.dist q (T.pts i)) T.data.indices
    (fun j i => M.one (computedAxis (M.space j) (q j) (pts i j)))
    (fun D off => D = off 0)
    (fun D off j x h => by
      rw [Subsingleton.elim j 0, h, L.sub_self, L.zero_add]; simp)
    (· < T.n)
    (fun D off i hi hD ho => by
      rw [h5] at hi
      rw [hD, h2, h4, hdist _ _ (hc.query 0 (hs 0)) (hc.points i hi 0 (hs 0)), ← hterm]
      exact ho 0)
    Inv hV T.data.root 0 (fun _ => 0, s) hlt (by rw [h1, h2]; exact hg) rfl
    (fun i hi j => by
      have hi' := hlt i hi
      rw [h5] at hi'
      rw [Subsingleton.elim j 0, hterm]
      exact hM.one_nonneg (L.s1_nonneg (hc.query 0 (hs 0)) (hc.points i hi' 0 (hs 0)))) hI
  refine ⟨vis, skip, ?_, ?_, ?_⟩
  · rw [hel] at hp
    rw [h5]
    exact hp.trans hperm
  · unfold KdTree.searchNearest searchNearestRoot
    rw [he]
  · unfold KdTree.searchNearest searchNearestRoot
    rw [he]
    exact hk

omit L in
theorem topo_so2 (L : CircleLaws α) : TopoMetric (metricSO2 α) where
  one_zero := by simp [metricSO2, sabs]
  one_mono x y h0 h := by
    have := (axis_l1 (d := 1) L.toRoundedLaws).mono x y h0 h
    exact this

omit L in
theorem topo_se2 [Mul α] (Q : SquareLaws α) : TopoMetric (metricSE2Sq α) where
  one_zero := Q.zero_mul_zero
  one_mono := Q.mul_mono

omit L in
theorem topo_t2 [Mul α] (Q : SquareLaws α) : TopoMetric (metricT2Sq α d) where
  one_zero := Q.zero_mul_zero
  one_mono := Q.mul_mono

end

section
variable {K : Type} [Field K] [LinearOrder K] [IsStrictOrderedRing K]

theorem Rounding.circleLaws (R : Rounding K) : CircleLaws R.F where
  toRoundedLaws := R.laws
  one_sub_zero := le_of_eq (Subtype.ext (by
    rw [R.val_sub, R.val_zero, _root_.sub_zero]
    exact (1 : R.F).2))

end

end Pico
