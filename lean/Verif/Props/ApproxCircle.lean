import Verif.Props.ApproxTight

/-!
# C149 on the circle

With `metric_so2` the approximate nearest neighbor is the nearest one, as on a line, unless the tree has empty leaves. And
on a line this is so for the nearest neighbor only: further neighbors and radius searches lose up to the ratio.
-/

namespace Pico.Props
open Spec

section Circle
variable {α : Type} [Field α] [LinearOrder α] [IsStrictOrderedRing α]

/-- From inside of a segment every point outside of it is at least as far as one of the end points. -/
theorem ends_le_outside {mn mx v p : α} (h0 : 0 ≤ mn) (h1 : mx ≤ 1) (hv : mn ≤ v ∧ v ≤ mx) (hp : 0 ≤ p ∧ p ≤ 1)
    (hout : p ≤ mn ∨ mx ≤ p) : circle v mn ≤ circle v p ∨ circle v mx ≤ circle v p := by
  have e1 : |v - mn| = v - mn := abs_of_nonneg (by linarith [hv.1])
  have e2 : |v - mx| = mx - v := by rw [abs_sub_comm]; exact abs_of_nonneg (by linarith [hv.2])
  have hmn : circle v mn ≤ v - mn := by unfold circle; rw [e1]; exact min_le_left _ _
  have hmx : circle v mx ≤ mx - v := by unfold circle; rw [e2]; exact min_le_left _ _
  rcases hout with ho | ho
  · have e3 : |v - p| = v - p := abs_of_nonneg (by linarith [hv.1])
    unfold circle at hmn hmx ⊢
    rw [e3]
    rcases le_total (v - p) (1 - (v - p)) with h | h
    · left; rw [min_eq_left h]; linarith
    · right; rw [min_eq_right h]; linarith [hp.1]
  · have e3 : |v - p| = p - v := by rw [abs_sub_comm]; exact abs_of_nonneg (by linarith [hv.2])
    unfold circle at hmn hmx ⊢
    rw [e3]
    rcases le_total (p - v) (1 - (p - v)) with h | h
    · right; rw [min_eq_left h]; linarith
    · left; rw [min_eq_right h]; linarith [hp.2]

/-- One end point of the segment that is at least as near is at least as near as any point outside of the segment. -/
theorem ends_le {mn mx v p : α} (h0 : 0 ≤ mn) (hm : mn ≤ mx) (h1 : mx ≤ 1) (hp : 0 ≤ p ∧ p ≤ 1)
    (hout : p ≤ mn ∨ mx ≤ p) (hle : Segment.s1Distance ⟨mn, mx⟩ v ≤ circle v p) :
    circle v mn ≤ circle v p ∨ circle v mx ≤ circle v p := by
  by_cases hin : mn ≤ v ∧ v ≤ mx
  · exact ends_le_outside h0 h1 hin hp hout
  · have hc : v < mn ∨ v > mx := by
      rcases not_and_or.1 hin with h | h
      · exact .inl (not_le.1 h)
      · exact .inr (not_le.1 h)
    unfold Segment.s1Distance Segment.s1Linear at hle
    simp only [hm, decide_true, if_true, Segment.s1DistanceMinMax, Bool.or_eq_true, decide_eq_true_eq, hc,
      stdMin_eq, s1Distance_eq] at hle
    exact min_le_iff.1 hle

/-- On the circle the child that is visited first has a nearest point. -/
theorem approx_circle {C : BuildCfg α 1 (Branch2 α 1)} (hN : C.N.low ≤ C.N.big)
    (hsb : C.setBranch = setBranchTopological) (hr : C.rule ≠ .midpoint) (hst : StopOk C) {e : α} (he : 0 < e)
    (q : Pt α 1) (hq : 0 ≤ q 0 ∧ q 0 ≤ 1)
    {depth : Int} {o : Nat} {seg : List Nat} {box : Box α 1} {t : Tree (Branch2 α 1)} {seg' : List Nat} {box' : Box α 1}
    (h : Created C depth o seg box t seg' box') (hp : ∀ i ∈ seg, ∀ j, InRange C.N (C.pts i j))
    (h01 : ∀ i ∈ seg, 0 ≤ C.pts i 0 ∧ C.pts i 0 ≤ 1) (hn : 0 < seg.length)
    (pre post : List Nat) (ho : o = pre.length) (nbd : α) (off : Pt α 1) (s : Neighbor α)
    (hs : ∀ i ∈ seg', (metricSO2 α).dist q (C.pts i) * (1 / e) < s.distance) :
    ∃ i ∈ seg', (searchNearest (fun b : Branch2 α 1 => b.splitDim) (pickTopological (metricSO2 α) q) (approxNnVisitor e)
        (fun i => (metricSO2 α).dist q (C.pts i)) (pre ++ (seg' ++ post)) t nbd (off, s)).2 =
          ⟨i, (metricSO2 α).dist q (C.pts i) * (1 / e)⟩ ∧
      ∀ k ∈ seg', (metricSO2 α).dist q (C.pts i) ≤ (metricSO2 α).dist q (C.pts k) := by
  have hie : 0 < 1 / e := one_div_pos.2 he
  have hdist : ∀ x : Pt α 1, (metricSO2 α).dist q x = circle (q 0) (x 0) := fun x => s1Distance_eq _ _
  induction h generalizing pre post nbd off s with
  | @leaf depth o seg box hl =>
    subst ho
    simp only [searchNearest, slice_append]
    obtain ⟨h1, h2, h3⟩ := approx_leaf e (fun i => (metricSO2 α).dist q (C.pts i)) seg s
    rcases h1 with h1 | ⟨i, hi, h1⟩
    · obtain ⟨a, ha⟩ := List.exists_mem_of_length_pos hn
      have := (h3 a ha).trans_lt (hs a ha)
      rw [h1] at this
      exact absurd this (lt_irrefl _)
    · refine ⟨i, hi, h1, fun k hk => ?_⟩
      have := h3 k hk
      rw [h1] at this
      exact le_of_mul_le_mul_right this hie
  | @branch depth o seg box sp l r segL segR boxL boxR hl hsplit cL cR ih1 ih2 =>
    have hpos := split_pos hr hsplit (two_le_of_not_leaf hst hl)
    have hm := splitter_mem hsplit
    have hpL : ∀ i ∈ sp.seg.take sp.pos, ∀ j, InRange C.N (C.pts i j) := fun i hi => hp i (hm.1 i hi)
    have hpR : ∀ i ∈ sp.seg.drop sp.pos, ∀ j, InRange C.N (C.pts i j) := fun i hi => hp i (hm.2 i hi)
    have hcL : ∀ i ∈ sp.seg.take sp.pos, 0 ≤ C.pts i 0 ∧ C.pts i 0 ≤ 1 := fun i hi => h01 i (hm.1 i hi)
    have hcR : ∀ i ∈ sp.seg.drop sp.pos, 0 ≤ C.pts i 0 ∧ C.pts i 0 ≤ 1 := fun i hi => h01 i (hm.2 i hi)
    have hnL : 0 < (sp.seg.take sp.pos).length := by rw [splitter_take_length hsplit]; exact hpos.1
    have hnR : 0 < (sp.seg.drop sp.pos).length := by rw [splitter_drop_length hsplit]; omega
    have bL := cL.built hN (fun h => absurd h hr) hpL (fun h => absurd h hr)
    have bR := cR.built hN (fun h => absurd h hr) hpR (fun h => absurd h hr)
    have hlenL : segL.length = sp.pos := by
      rw [cL.perm.length_eq, splitter_take_length hsplit]
    have hdim : ∀ j : Fin 1, j = 0 := fun j => Subsingleton.elim _ _
    obtain ⟨⟨a, ha, ea⟩, a', ha', ea'⟩ := created_attained hr hst cL hpL hnL 0
    obtain ⟨⟨b, hb, eb⟩, b', hb', eb'⟩ := created_attained hr hst cR hpR hnR 0
    have cirL : ∀ i ∈ segL, 0 ≤ C.pts i 0 ∧ C.pts i 0 ≤ 1 := fun i hi => hcL i (cL.perm.mem_iff.1 hi)
    have cirR : ∀ i ∈ segR, 0 ≤ C.pts i 0 ∧ C.pts i 0 ≤ 1 := fun i hi => hcR i (cR.perm.mem_iff.1 hi)
    have hlr : boxL.max 0 ≤ boxR.min 0 := by
      have hso := (splitter_ok hsplit).1
      have h1 := hso.left_le a (cL.perm.mem_iff.1 ha)
      have h2 := hso.right_ge b' (cR.perm.mem_iff.1 hb')
      rw [hdim sp.dim] at h1 h2
      rw [← ea, ← eb']
      exact h1.trans h2
    have memL := fun i hi => bL.mem i hi 0
    have memR := fun i hi => bR.mem i hi 0
    have hL0 : 0 ≤ boxL.min 0 := by rw [← ea']; exact (cirL a' ha').1
    have hL1 : boxL.max 0 ≤ 1 := by rw [← ea]; exact (cirL a ha).2
    have hR0 : 0 ≤ boxR.min 0 := by rw [← eb']; exact (cirR b' hb').1
    have hR1 : boxR.max 0 ≤ 1 := by rw [← eb]; exact (cirR b hb).2
    have hLm : boxL.min 0 ≤ boxL.max 0 := (memL a ha).1.trans (memL a ha).2
    have hRm : boxR.min 0 ≤ boxR.max 0 := (memR b hb).1.trans (memR b hb).2
    have elL : l.elems (pre ++ (segL ++ segR ++ post)) = segL := by
      have := bL.elems_eq pre (segR ++ post) ho
      simpa only [List.append_assoc] using this
    have elR : r.elems (pre ++ (segL ++ segR ++ post)) = segR := by
      have := bR.elems_eq (pre ++ segL) post (by simp [ho, hlenL])
      simpa only [List.append_assoc] using this
    have iL := fun nbd off s hs => ih1 hpL hcL hnL pre (segR ++ post) ho nbd off s hs
    have iR := fun nbd off s hs => ih2 hpR hcR hnR (pre ++ segL) post (by simp [ho, hlenL]) nbd off s hs
    have eqL : pre ++ (segL ++ (segR ++ post)) = pre ++ (segL ++ segR ++ post) := by simp
    have eqR : pre ++ segL ++ (segR ++ post) = pre ++ (segL ++ segR ++ post) := by simp
    rw [eqL] at iL
    rw [eqR] at iR
    generalize pre ++ (segL ++ segR ++ post) = v at *
    rw [hsb, hdim sp.dim]
    have sL := fun k (hk : k ∈ segL) => segment_s1_le hL0 hL1 hq (memL k hk)
    have sR := fun k (hk : k ∈ segR) => segment_s1_le hR0 hR1 hq (memR k hk)
    have dL : boxDistance (metricSO2 α) (boxL.min 0) (boxL.max 0) (q 0) 0 =
        Segment.s1Distance ⟨boxL.min 0, boxL.max 0⟩ (q 0) := by
      show sabs (Segment.s1Distance ⟨boxL.min 0, boxL.max 0⟩ (q 0)) = _
      rw [sabs_eq, abs_of_nonneg (sL a ha).1]
    have dR : boxDistance (metricSO2 α) (boxR.min 0) (boxR.max 0) (q 0) 0 =
        Segment.s1Distance ⟨boxR.min 0, boxR.max 0⟩ (q 0) := by
      show sabs (Segment.s1Distance ⟨boxR.min 0, boxR.max 0⟩ (q 0)) = _
      rw [sabs_eq, abs_of_nonneg (sR b hb).1]
    by_cases hv : boxDistance (metricSO2 α) (boxL.min 0) (boxL.max 0) (q 0) 0 <
        boxDistance (metricSO2 α) (boxR.min 0) (boxR.max 0) (q 0) 0
    · have hpick : ∃ x, pickTopological (metricSO2 α) q (setBranchTopological boxL boxR 0) = (true, x) :=
        ⟨_, if_pos hv⟩
      obtain ⟨x, hpick⟩ := hpick
      rw [dL, dR] at hv
      obtain ⟨i, hi, hres, hmin⟩ := iL nbd off s fun i hi => hs i (by simp [hi])
      have hfar : ∀ k ∈ segR, (metricSO2 α).dist q (C.pts i) ≤ (metricSO2 α).dist q (C.pts k) := fun k hk => by
        rcases ends_le hL0 hLm hL1 (cirR k hk) (.inr (hlr.trans (memR k hk).1)) (hv.le.trans (sR k hk).2) with h | h
        · refine (hmin a' ha').trans ?_
          rw [hdist, hdist, ea']; exact h
        · refine (hmin a ha).trans ?_
          rw [hdist, hdist, ea]; exact h
      refine ⟨i, by simp [hi], ?_, fun k hk => ?_⟩
      · simp only [searchNearest, hpick, if_true]
        rw [hres]
        have hun := fun nbd off => approx_unchanged (fun b : Branch2 α 1 => b.splitDim) (pickTopological (metricSO2 α) q) e
          (fun i => (metricSO2 α).dist q (C.pts i)) v r nbd off ⟨i, (metricSO2 α).dist q (C.pts i) * (1 / e)⟩ (by
            rw [elR]; intro k hk; exact mul_le_mul_of_nonneg_right (hfar k hk) hie.le)
        split_ifs
        · exact hun _ _
        · exact hres
      · rcases List.mem_append.1 hk with hk | hk
        · exact hmin k hk
        · exact hfar k hk
    · have hpick : ∃ x, pickTopological (metricSO2 α) q (setBranchTopological boxL boxR 0) = (false, x) :=
        ⟨_, if_neg hv⟩
      obtain ⟨x, hpick⟩ := hpick
      rw [dL, dR, not_lt] at hv
      obtain ⟨i, hi, hres, hmin⟩ := iR nbd off s fun i hi => hs i (by simp [hi])
      have hfar : ∀ k ∈ segL, (metricSO2 α).dist q (C.pts i) ≤ (metricSO2 α).dist q (C.pts k) := fun k hk => by
        rcases ends_le hR0 hRm hR1 (cirL k hk) (.inl ((memL k hk).2.trans hlr)) (hv.trans (sL k hk).2) with h | h
        · refine (hmin b' hb').trans ?_
          rw [hdist, hdist, eb']; exact h
        · refine (hmin b hb).trans ?_
          rw [hdist, hdist, eb]; exact h
      refine ⟨i, by simp [hi], ?_, fun k hk => ?_⟩
      · simp only [searchNearest, hpick, Bool.false_eq_true, if_false]
        rw [hres]
        have hun := fun nbd off => approx_unchanged (fun b : Branch2 α 1 => b.splitDim) (pickTopological (metricSO2 α) q) e
          (fun i => (metricSO2 α).dist q (C.pts i)) v l nbd off ⟨i, (metricSO2 α).dist q (C.pts i) * (1 / e)⟩ (by
            rw [elL]; intro k hk; exact mul_le_mul_of_nonneg_right (hfar k hk) hie.le)
        split_ifs
        · exact hun _ _
        · exact hres
      · rcases List.mem_append.1 hk with hk | hk
        · exact hfar k hk
        · exact hmin k hk

/-- C149: on the circle, with the median and the sliding midpoint rule, the approximate nearest neighbor is a nearest one,
whatever the ratio. -/
theorem c149_circle {N : Num α} {pts : Nat → Pt α 1} {n : Nat} {o : BuildOpts α 1} {fuel : Nat}
    {T : KdTree α 1 (Branch2 α 1)} (h : KdTree.make (topologicalTag α 1) (metricSO2 α) N pts n o fuel = .ok T)
    (hR : Representable N pts n o) (hn : 0 < n) (hr : o.rule ≠ .midpoint) (q : Pt α 1)
    (hc : CircleOk (fun _ => .s1) pts n o q) {e : α} (he : 0 < e) (hbig : ∀ i < n, circle (q 0) (pts i 0) / e < N.big)
    (nn : Neighbor α) :
    ∃ i < n, T.searchNnApprox q e nn = ⟨i, circle (q 0) (pts i 0) / e⟩ ∧
      ∀ j < n, circle (q 0) (pts i 0) ≤ circle (q 0) (pts j 0) := by
  obtain ⟨box, hcr⟩ := created_of_make h
  obtain ⟨htag, hmet, rfl, rfl, rfl, _⟩ := KdTree.make_ok h
  have hdist : ∀ x : Pt α 1, (metricSO2 α).dist q x = circle (q 0) (x 0) := fun x => s1Distance_eq _ _
  have hmem : ∀ i, i ∈ T.data.indices ↔ i < T.n := fun i => by rw [hcr.perm.mem_iff, List.mem_range]
  have hlen : 0 < (List.range T.n).length := by simpa using hn
  obtain ⟨i, hi, h1, h2⟩ := approx_circle hR.num rfl hr (stopOk_of_created hcr hlen) he q (hc.query 0 rfl) hcr
    (fun i hi => hR.points i (List.mem_range.1 hi)) (fun i hi => hc.points i (List.mem_range.1 hi) 0 rfl) hlen [] [] rfl
    0 (fun _ => 0) (nnInit T.num nn)
    (fun i hi => by rw [mul_one_div]; exact (hdist _).symm ▸ hbig i ((hmem i).1 hi))
  simp only [List.nil_append, List.append_nil, mul_one_div] at h1
  refine ⟨i, (hmem i).1 hi, ?_, fun j hj => ?_⟩
  · rw [← hdist]
    unfold KdTree.searchNnApprox KdTree.searchNearest searchNearestRoot
    rw [htag, hmet]
    exact h1
  · have := h2 j ((hmem j).2 hj)
    change (metricSO2 α).dist q (T.pts i) ≤ (metricSO2 α).dist q (T.pts j) at this
    rwa [hdist, hdist] at this

end Circle

/-- Three points on the circle. -/
def archPts : Nat → Pt Rat 1 := fun i _ => ([0, 1 / 16, 10 / 16] : List Rat).getD i 0

/-- One point per leaf, bounds from 0 to 1. -/
def archOpts (r : Rule) : BuildOpts Rat 1 := ⟨Ref.std, r, .maxLeafSize 1, .given (fun _ => 0) (fun _ => 1), 32⟩

/-- C149: with the midpoint rule not on the circle either. -/
theorem c149_circle_midpoint_false : Representable Ref.ratNum archPts 3 (archOpts .midpoint) ∧
    CircleOk (fun _ => .s1) archPts 3 (archOpts .midpoint) (fun _ => 17 / 32) ∧
    ∃ T, KdTree.make (topologicalTag Rat 1) (metricSO2 Rat) Ref.ratNum archPts 3 (archOpts .midpoint) 10 = .ok T ∧
      ∃ i < 2, T.searchNnApprox (fun _ => 17 / 32) 6 ⟨0, 0⟩ = ⟨i, circle (17 / 32) (archPts i 0) / 6⟩ ∧
      circle (17 / 32) (archPts i 0) = 5 * circle (17 / 32) (archPts 2 0) := by
  refine ⟨⟨by decide +kernel, by unfold InRange; decide +kernel, ?_, fun _ a b hab _ _ => ?_⟩, ⟨by decide +kernel,
    fun _ _ => by norm_num, fun _ mn mx h j _ => ?_⟩, ?_⟩
  · intro j
    simp only [InRange, Ref.ratNum]
    norm_num
  · simp only [Ref.ratNum]
    constructor <;> linarith
  · cases h
    norm_num
  · obtain ⟨T, h, hp⟩ := Outcome.exists_of_check
      (x := KdTree.make (topologicalTag Rat 1) (metricSO2 Rat) Ref.ratNum archPts 3 (archOpts .midpoint) 10)
      (p := fun T => decide ((T.searchNnApprox (fun _ => 17 / 32) 6 ⟨0, 0⟩).index < 2 ∧
        (T.searchNnApprox (fun _ => 17 / 32) 6 ⟨0, 0⟩).distance = 15 / 32 / 6)) (by decide +kernel)
    obtain ⟨h1, h2⟩ := of_decide_eq_true hp
    have key : ∀ i < 2, circle (17 / 32) (archPts i 0) = 15 / 32 := by decide +kernel
    have key2 : circle (17 / 32) (archPts 2 0) = 3 / 32 := by decide +kernel
    refine ⟨T, h, _, h1, ?_, by rw [key _ h1, key2]; norm_num⟩
    rw [key _ h1, ← h2]

/-- The same points with the sliding midpoint rule: the nearest point is found (`c149_circle`). -/
example : ∃ T, KdTree.make (topologicalTag Rat 1) (metricSO2 Rat) Ref.ratNum archPts 3 (archOpts .sliding) 10 = .ok T ∧
    ∃ i < 3, T.searchNnApprox (fun _ => 17 / 32) 6 ⟨0, 0⟩ = ⟨i, circle (17 / 32) (archPts i 0) / 6⟩ ∧
      ∀ j < 3, circle (17 / 32) (archPts i 0) ≤ circle (17 / 32) (archPts j 0) := by
  obtain ⟨T, h, _⟩ := Outcome.exists_of_check
    (x := KdTree.make (topologicalTag Rat 1) (metricSO2 Rat) Ref.ratNum archPts 3 (archOpts .sliding) 10)
    (p := fun _ => true) (by decide +kernel)
  exact ⟨T, h, c149_circle h ⟨by decide +kernel, by unfold InRange; decide +kernel, by
    intro j; simp only [InRange, Ref.ratNum]; norm_num, nofun⟩ (by decide) nofun (fun _ => 17 / 32)
    ⟨by decide +kernel, fun _ _ => by norm_num, nofun⟩ (by norm_num) (by decide +kernel) _⟩

/-- Three points on a line, two of them on one side of the first split. -/
def besidePts : Nat → Pt Rat 1 := fun i _ => ([0, 9, 11] : List Rat).getD i 0

/-- Two points per leaf, bounds from 0 to 20. -/
def besideOpts : BuildOpts Rat 1 := ⟨Ref.std, .sliding, .maxLeafSize 2, .given (fun _ => 0) (fun _ => 20), 32⟩

/-- C149: on a line the second neighbor and the neighbors within a radius are not exact, without any empty leaf: from 9 with
the ratio 6 the second neighbor is the point at the distance 9 instead of the one at 2, and the one at 2 is not within 10. -/
theorem c149_line_others_false : Representable Ref.ratNum besidePts 3 besideOpts ∧
    ∃ T, KdTree.make (euclideanTag Rat 1) (metricL1 Rat 1) Ref.ratNum besidePts 3 besideOpts 10 = .ok T ∧
      (∃ out, T.searchKnnApprox (fun _ => 9) 2 6 [] = .ok out ∧ out.map Neighbor.index = [1, 0]) ∧
      (∀ sorter, (T.searchRadiusApprox sorter (fun _ => 9) 10 6 [] false).map Neighbor.index = [0, 1]) ∧
      (metricL1 Rat 1).dist (fun _ => 9) (besidePts 0) = 9 ∧ (metricL1 Rat 1).dist (fun _ => 9) (besidePts 2) = 2 := by
  refine ⟨⟨by decide +kernel, by unfold InRange; decide +kernel, ?_, nofun⟩, ?_⟩
  · intro j
    simp only [InRange, Ref.ratNum]
    norm_num
  · obtain ⟨T, h, hp⟩ := Outcome.exists_of_check
      (x := KdTree.make (euclideanTag Rat 1) (metricL1 Rat 1) Ref.ratNum besidePts 3 besideOpts 10)
      (p := fun T => (match T.searchKnnApprox (fun _ => 9) 2 6 [] with
          | .ok out => decide (out.map Neighbor.index = [1, 0])
          | _ => false) &&
        decide ((T.searchNearest (fun _ => 9) (approxRadiusVisitor 6 10) (radiusInit [])).map Neighbor.index = [0, 1]))
      (by decide +kernel)
    rw [Bool.and_eq_true] at hp
    obtain ⟨h1, h2⟩ := hp
    refine ⟨T, h, ?_, fun _ => of_decide_eq_true h2, by decide +kernel, by decide +kernel⟩
    split at h1
    · rename_i out hout
      exact ⟨out, hout, of_decide_eq_true h1⟩
    · exact absurd h1 (by simp)

end Pico.Props
