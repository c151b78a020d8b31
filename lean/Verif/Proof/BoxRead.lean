import Verif.Proof.BoxSearch
import Verif.Proof.Cells
import Verif.SpecBox

/-! # Which points a box search reads -/

set_option linter.unusedSectionVars false

namespace Pico

open Spec

section
variable {α : Type} [LinearOrder α] {d : Nat} {β : Type}

/-- The box search that stands at the node `t` with the running box `B` comes to the leaf of point `i`. -/
def BoxReach (splitDim : β → Fin d) (leftMax rightMin : β → α) (containsBox : Box α d → Bool)
    (intersectsLeft intersectsRight : β → Bool) (v : List Nat) : Tree β → Box α d → Nat → Prop
  | .leaf _ _, _, _ => True
  | .branch data l r, B, i =>
    (i ∈ l.elems v → containsBox (B.setMax (splitDim data) (leftMax data)) = false ∧ intersectsLeft data = true ∧
      BoxReach splitDim leftMax rightMin containsBox intersectsLeft intersectsRight v l
        (B.setMax (splitDim data) (leftMax data)) i) ∧
    (i ∈ r.elems v → containsBox (B.setMin (splitDim data) (rightMin data)) = false ∧ intersectsRight data = true ∧
      BoxReach splitDim leftMax rightMin containsBox intersectsLeft intersectsRight v r
        (B.setMin (splitDim data) (rightMin data)) i)

variable {pts : Nat → Pt α d} {sb : Box α d → Box α d → Fin d → β}
  {splitDim : β → Fin d} {leftMax rightMin : β → α} {containsPt : Nat → Bool}
  {containsBox : Box α d → Bool} {intersectsLeft intersectsRight : β → Bool}

theorem Boxed.elems_eq {o : Nat} {t : Tree β} {seg : List Nat} {box : Box α d} (h : Boxed pts sb o t seg box)
    (pre post : List Nat) (ho : o = pre.length) : t.elems (pre ++ (seg ++ post)) = seg := by
  induction h generalizing pre post with
  | @leaf o seg box h => subst ho; rw [Tree.elems, slice_append]
  | @branch o l r segL segR boxL boxR dim hl hr ih1 ih2 =>
    rw [Tree.elems, List.append_assoc, ih1 pre _ ho]
    have := ih2 (pre ++ segL) post (by simp [ho])
    rw [List.append_assoc] at this
    rw [this]

open Classical in
/-- The box search with the test `cp` of points instead of `containsPt`: `cp` decides about the points whose leaf is
reached, `containsPt` about the others. -/
theorem searchBox_reach
    (hq : BoxQuery pts sb splitDim leftMax rightMin containsPt intersectsLeft intersectsRight)
    (hbox : ∀ (b : Box α d) i, containsBox b = true → b.Mem (pts i) → containsPt i = true) (cp : Nat → Bool)
    {o : Nat} {t : Tree β} {seg : List Nat} {box : Box α d} (h : Boxed pts sb o t seg box)
    (pre post : List Nat) (ho : o = pre.length) (hnd : seg.Nodup) (B : Box α d) (hB : ∀ i ∈ seg, B.Mem (pts i))
    (acc : List Nat) :
    searchBox splitDim leftMax rightMin cp containsBox intersectsLeft intersectsRight
      (pre ++ (seg ++ post)) t (B, acc) = (B, acc ++ seg.filter fun i =>
        if BoxReach splitDim leftMax rightMin containsBox intersectsLeft intersectsRight (pre ++ (seg ++ post)) t B i
        then cp i else containsPt i) := by
  induction h generalizing pre post B acc with
  | @leaf o seg box h =>
    subst ho
    simp only [searchBox, BoxReach]
    rw [slice_append]
    simp
  | @branch o l r segL segR boxL boxR dim hl hr ih1 ih2 =>
    have e1 : pre ++ ((segL ++ segR) ++ post) = pre ++ (segL ++ (segR ++ post)) := by simp
    have e2 : pre ++ (segL ++ (segR ++ post)) = (pre ++ segL) ++ (segR ++ post) := by simp
    have ho' : o + segL.length = (pre ++ segL).length := by simp [ho]
    have heL : l.elems (pre ++ (segL ++ (segR ++ post))) = segL := hl.elems_eq pre _ ho
    have heR : r.elems (pre ++ (segL ++ (segR ++ post))) = segR := by rw [e2]; exact hr.elems_eq _ _ ho'
    obtain ⟨hndL, hndR, hdis⟩ := List.nodup_append.1 hnd
    have hBL : ∀ i ∈ segL, (B.setMax dim (boxL.max dim)).Mem (pts i) := by
      intro i hi j
      have h1 := hB i (List.mem_append_left _ hi) j
      by_cases hj : j = dim
      · subst hj; simpa using ⟨h1.1, (hl.mem i hi j).2⟩
      · rw [Box.setMax_max_ne _ _ hj]; exact h1
    have hBR : ∀ i ∈ segR, (B.setMin dim (boxR.min dim)).Mem (pts i) := by
      intro i hi j
      have h1 := hB i (List.mem_append_right _ hi) j
      by_cases hj : j = dim
      · subst hj; simpa using ⟨(hr.mem i hi j).1, h1.2⟩
      · rw [Box.setMin_min_ne _ _ hj]; exact h1
    rw [e1]
    set v := pre ++ (segL ++ (segR ++ post)) with hv
    have hRL : ∀ i ∈ segL, (BoxReach splitDim leftMax rightMin containsBox intersectsLeft intersectsRight v
        (.branch (sb boxL boxR dim) l r) B i ↔ (containsBox (B.setMax dim (boxL.max dim)) = false ∧
          intersectsLeft (sb boxL boxR dim) = true ∧
          BoxReach splitDim leftMax rightMin containsBox intersectsLeft intersectsRight v l
            (B.setMax dim (boxL.max dim)) i)) := by
      intro i hi
      have hni : i ∉ segR := fun h => hdis i hi i h rfl
      simp only [BoxReach, heL, heR, hq.dim, hq.left, hi, hni, true_imp_iff, false_imp_iff, and_true]
    have hRR : ∀ i ∈ segR, (BoxReach splitDim leftMax rightMin containsBox intersectsLeft intersectsRight v
        (.branch (sb boxL boxR dim) l r) B i ↔ (containsBox (B.setMin dim (boxR.min dim)) = false ∧
          intersectsRight (sb boxL boxR dim) = true ∧
          BoxReach splitDim leftMax rightMin containsBox intersectsLeft intersectsRight v r
            (B.setMin dim (boxR.min dim)) i)) := by
      intro i hi
      have hni : i ∉ segL := fun h => hdis i h i hi rfl
      simp only [BoxReach, heL, heR, hq.dim, hq.right, hi, hni, true_imp_iff, false_imp_iff, true_and]
    have hL : (if containsBox (B.setMax dim (boxL.max dim)) then
          (B.setMax dim (boxL.max dim), reportNode v l acc)
        else if intersectsLeft (sb boxL boxR dim) then
          searchBox splitDim leftMax rightMin cp containsBox intersectsLeft intersectsRight
            v l (B.setMax dim (boxL.max dim), acc)
        else (B.setMax dim (boxL.max dim), acc)) =
        (B.setMax dim (boxL.max dim), acc ++ segL.filter fun i =>
          if BoxReach splitDim leftMax rightMin containsBox intersectsLeft intersectsRight v
            (.branch (sb boxL boxR dim) l r) B i then cp i else containsPt i) := by
      split_ifs with h1 h2
      · rw [hv, hl.reportNode_eq pre _ acc ho, ← hv, List.filter_eq_self.2]
        intro i hi
        rw [if_neg (by rw [hRL i hi]; simp [h1])]
        exact hbox _ i h1 (hBL i hi)
      · rw [hv, ih1 pre _ ho hndL _ hBL acc, ← hv]
        congr 2
        refine List.filter_congr fun i hi => ?_
        have := hRL i hi
        simp only [h1, h2, true_and] at this
        simp only [this]
      · rw [List.filter_eq_nil_iff.2, List.append_nil]
        intro i hi
        rw [if_neg (by rw [hRL i hi]; simp [h2])]
        exact fun hc => h2 (hq.meetsLeft _ _ _ i (hl.mem i hi) hc)
    have hR : ∀ acc', (if containsBox (B.setMin dim (boxR.min dim)) then
          (B.setMin dim (boxR.min dim), reportNode v r acc')
        else if intersectsRight (sb boxL boxR dim) then
          searchBox splitDim leftMax rightMin cp containsBox intersectsLeft intersectsRight
            v r (B.setMin dim (boxR.min dim), acc')
        else (B.setMin dim (boxR.min dim), acc')) =
        (B.setMin dim (boxR.min dim), acc' ++ segR.filter fun i =>
          if BoxReach splitDim leftMax rightMin containsBox intersectsLeft intersectsRight v
            (.branch (sb boxL boxR dim) l r) B i then cp i else containsPt i) := by
      intro acc'
      split_ifs with h1 h2
      · rw [e2, hr.reportNode_eq (pre ++ segL) _ acc' ho', ← e2, List.filter_eq_self.2]
        intro i hi
        rw [if_neg (by rw [hRR i hi]; simp [h1])]
        exact hbox _ i h1 (hBR i hi)
      · rw [e2, ih2 (pre ++ segL) _ ho' hndR _ hBR acc', ← e2]
        congr 2
        refine List.filter_congr fun i hi => ?_
        have := hRR i hi
        simp only [h1, h2, true_and] at this
        simp only [this]
      · rw [List.filter_eq_nil_iff.2, List.append_nil]
        intro i hi
        rw [if_neg (by rw [hRR i hi]; simp [h2])]
        exact fun hc => h2 (hq.meetsRight _ _ _ i (hr.mem i hi) hc)
    rw [List.filter_append, ← List.append_assoc]
    rw [searchBox]
    simp only [hq.dim, hq.left, hq.right, hL, Box.setMax_setMax, Box.setMax_self, hR,
      Box.setMin_setMin, Box.setMin_self]

end

/-! ## The Euclidean query -/

section
variable {α : Type} [LinearOrder α] [Zero α] [One α] [Add α] [Sub α] [Neg α] {d : Nat} {pts : Nat → Pt α d}

/-- `BoxReach` for a Euclidean metric. -/
abbrev BoxReach1 (M : Metric α d) (q : Box α d) (v : List Nat) : Tree (Branch1 α d) → Box α d → Nat → Prop :=
  BoxReach (euclideanTag α d).splitDim (euclideanTag α d).leftMax (euclideanTag α d).rightMin
    ((euclideanTag α d).containsBox M q) ((euclideanTag α d).intersectsLeft q) ((euclideanTag α d).intersectsRight q) v

/-- The place of the query box that is next to `p`. -/
def clampTo (q : Box α d) (p : Pt α d) : Pt α d := fun j => max (q.min j) (min (q.max j) (p j))

variable {M : Metric α d} {q : Box α d} {o : Nat} {t : Tree (Branch1 α d)} {seg : List Nat} {box : Box α d}

/-- Where the points of a branch are. -/
theorem Boxed.split_elems {pre post segL segR : List Nat} {l r : Tree (Branch1 α d)} {boxL boxR : Box α d}
    (hl : Boxed pts (euclideanTag α d).setBranch o l segL boxL)
    (hr : Boxed pts (euclideanTag α d).setBranch (o + segL.length) r segR boxR) (ho : o = pre.length) :
    l.elems (pre ++ ((segL ++ segR) ++ post)) = segL ∧ r.elems (pre ++ ((segL ++ segR) ++ post)) = segR := by
  constructor
  · rw [List.append_assoc]
    exact hl.elems_eq pre _ ho
  · have e : pre ++ ((segL ++ segR) ++ post) = (pre ++ segL) ++ (segR ++ post) := by simp
    rw [e]
    exact hr.elems_eq _ _ (by simp [ho])

theorem boxReach_inside (h : Boxed pts (euclideanTag α d).setBranch o t seg box) (pre post : List Nat)
    (ho : o = pre.length) (hnd : seg.Nodup) (B : Box α d) {i : Nat} (hi : i ∈ seg)
    (hr : BoxReach1 M q (pre ++ (seg ++ post)) t B i) : tightCell (pre ++ (seg ++ post)) t i (clampTo q (pts i)) := by
  induction h generalizing pre post B with
  | leaf h => trivial
  | @branch o l r segL segR boxL boxR dim hl hr' ih1 ih2 =>
    obtain ⟨heL, heR⟩ := hl.split_elems (pre := pre) (post := post) hr' ho
    obtain ⟨hndL, hndR, hdis⟩ := List.nodup_append.1 hnd
    simp only [BoxReach1, BoxReach, heL, heR] at hr
    simp only [tightCell, holds_iff, heL, heR]
    refine ⟨fun h => ?_, fun h => ?_⟩
    · obtain ⟨-, h2, h3⟩ := hr.1 h
      have h2 : q.min dim ≤ boxL.max dim := by
        simpa [euclideanTag, setBranchEuclidean] using h2
      refine ⟨max_le h2 ((min_le_right _ _).trans (hl.mem i h dim).2), ?_⟩
      rw [List.append_assoc] at h3 ⊢
      exact ih1 pre _ ho hndL _ h h3
    · obtain ⟨-, h2, h3⟩ := hr.2 h
      have h2 : boxR.min dim ≤ q.max dim := by
        simpa [euclideanTag, setBranchEuclidean] using h2
      refine ⟨(le_min h2 (hr'.mem i h dim).1).trans (le_max_right _ _), ?_⟩
      have e : pre ++ ((segL ++ segR) ++ post) = (pre ++ segL) ++ (segR ++ post) := by simp
      rw [e] at h3 ⊢
      exact ih2 (pre ++ segL) _ (by simp [ho]) hndR _ h h3

theorem boxReach_outside (h : Boxed pts (euclideanTag α d).setBranch o t seg box) (pre post : List Nat)
    (ho : o = pre.length) (hnd : seg.Nodup) (B : Box α d) (hB : ∀ j, B.min j ≤ box.min j ∧ box.max j ≤ B.max j)
    {i : Nat} (hi : i ∈ seg) (hc : q.containsBox B = false ∨ ∀ b e, t ≠ .leaf b e)
    (hr : BoxReach1 M q (pre ++ (seg ++ post)) t B i) :
    ∃ z, tightCell (pre ++ (seg ++ post)) t i z ∧ B.Mem z ∧ ¬ InBox q.min q.max z := by
  induction h generalizing pre post B with
  | @leaf o seg box h =>
    have hc := hc.resolve_right (by simp)
    have hle : ∀ j, B.min j ≤ B.max j := fun j =>
      (hB j).1.trans (((h i hi j).1.trans (h i hi j).2).trans (hB j).2)
    simp only [Box.containsBox, Bool.and_eq_false_iff] at hc
    rcases hc with hc | hc
    · refine ⟨B.min, trivial, fun j => ⟨le_rfl, hle j⟩, fun h => ?_⟩
      rw [(Box.containsPt_iff _ _).2 h] at hc
      cases hc
    · refine ⟨B.max, trivial, fun j => ⟨hle j, le_rfl⟩, fun h => ?_⟩
      rw [(Box.containsPt_iff _ _).2 h] at hc
      cases hc
  | @branch o l r segL segR boxL boxR dim hl hr' ih1 ih2 =>
    obtain ⟨heL, heR⟩ := hl.split_elems (pre := pre) (post := post) hr' ho
    obtain ⟨hndL, hndR, hdis⟩ := List.nodup_append.1 hnd
    have hsub : ∀ j, (B.min j ≤ boxL.min j ∧ boxL.max j ≤ B.max j) ∧ (B.min j ≤ boxR.min j ∧ boxR.max j ≤ B.max j) := by
      intro j
      have := hB j
      rw [Box.fitBox_min, Box.fitBox_max, le_min_iff, max_le_iff] at this
      exact ⟨⟨this.1.1, this.2.1⟩, this.1.2, this.2.2⟩
    simp only [BoxReach1, BoxReach, heL, heR] at hr
    simp only [tightCell, holds_iff, heL, heR]
    rcases List.mem_append.1 hi with h | h
    · have hni : i ∉ segR := fun h' => hdis i h i h' rfl
      obtain ⟨h1, -, h3⟩ := hr.1 h
      rw [List.append_assoc] at h3 ⊢
      have hB' : ∀ j, (B.setMax dim (boxL.max dim)).min j ≤ boxL.min j ∧
          boxL.max j ≤ (B.setMax dim (boxL.max dim)).max j := by
        intro j
        by_cases hj : j = dim
        · subst hj; simpa using (hsub j).1.1
        · rw [Box.setMax_max_ne _ _ hj]; exact (hsub j).1
      obtain ⟨z, hz1, hz2, hz3⟩ := ih1 pre _ ho hndL _ hB' h (Or.inl h1) h3
      have hzd : z dim ≤ boxL.max dim := by simpa using (hz2 dim).2
      refine ⟨z, ⟨fun _ => ⟨hzd, hz1⟩, fun h' => absurd h' hni⟩, fun j => ?_, hz3⟩
      by_cases hj : j = dim
      · subst hj; exact ⟨(hz2 j).1, hzd.trans (hsub j).1.2⟩
      · have := hz2 j
        rw [Box.setMax_max_ne _ _ hj] at this; exact this
    · have hni : i ∉ segL := fun h' => hdis i h' i h rfl
      obtain ⟨h1, -, h3⟩ := hr.2 h
      have e : pre ++ ((segL ++ segR) ++ post) = (pre ++ segL) ++ (segR ++ post) := by simp
      rw [e] at h3 ⊢
      have hB' : ∀ j, (B.setMin dim (boxR.min dim)).min j ≤ boxR.min j ∧
          boxR.max j ≤ (B.setMin dim (boxR.min dim)).max j := by
        intro j
        by_cases hj : j = dim
        · subst hj; simpa using (hsub j).2.2
        · rw [Box.setMin_min_ne _ _ hj]; exact (hsub j).2
      obtain ⟨z, hz1, hz2, hz3⟩ := ih2 (pre ++ segL) _ (by simp [ho]) hndR _ hB' h (Or.inl h1) h3
      have hzd : boxR.min dim ≤ z dim := by simpa using (hz2 dim).1
      refine ⟨z, ⟨fun h' => absurd h' hni, fun _ => ⟨hzd, hz1⟩⟩, fun j => ?_, hz3⟩
      by_cases hj : j = dim
      · subst hj; exact ⟨(hsub j).2.1.trans hzd, (hz2 j).2⟩
      · have := hz2 j
        rw [Box.setMin_min_ne _ _ hj] at this; exact this

theorem boxReach_border (h : Boxed pts (euclideanTag α d).setBranch o t seg box) (pre post : List Nat)
    (ho : o = pre.length) (hnd : seg.Nodup) (B : Box α d) {i : Nat} (hi : i ∈ seg) {y z : Pt α d}
    (hy : tightCell (pre ++ (seg ++ post)) t i y) (hy' : InBox q.min q.max y)
    (hz : tightCell (pre ++ (seg ++ post)) t i z) (hz' : B.Mem z) (hz'' : ¬ InBox q.min q.max z) :
    BoxReach1 M q (pre ++ (seg ++ post)) t B i := by
  induction h generalizing pre post B with
  | leaf h => trivial
  | @branch o l r segL segR boxL boxR dim hl hr ih1 ih2 =>
    obtain ⟨heL, heR⟩ := hl.split_elems (pre := pre) (post := post) hr ho
    obtain ⟨hndL, hndR, hdis⟩ := List.nodup_append.1 hnd
    simp only [BoxReach1, BoxReach, heL, heR]
    simp only [tightCell, holds_iff, heL, heR] at hy hz
    refine ⟨fun h => ?_, fun h => ?_⟩
    · obtain ⟨hy1, hy2⟩ := hy.1 h
      obtain ⟨hz1, hz2⟩ := hz.1 h
      have hm : (B.setMax dim (boxL.max dim)).Mem z := by
        intro j
        by_cases hj : j = dim
        · subst hj; simpa using ⟨(hz' j).1, hz1⟩
        · rw [Box.setMax_max_ne _ _ hj]; exact hz' j
      refine ⟨?_, ?_, ?_⟩
      · rw [Bool.eq_false_iff]
        exact fun hc => hz'' ((Box.containsPt_iff _ _).1 (Box.containsBox_mem hc hm))
      · simpa [euclideanTag, setBranchEuclidean] using (hy' dim).1.trans hy1
      · rw [List.append_assoc] at hy2 hz2 ⊢
        exact ih1 pre _ ho hndL _ h hy2 hz2 hm
    · obtain ⟨hy1, hy2⟩ := hy.2 h
      obtain ⟨hz1, hz2⟩ := hz.2 h
      have hm : (B.setMin dim (boxR.min dim)).Mem z := by
        intro j
        by_cases hj : j = dim
        · subst hj; simpa using ⟨hz1, (hz' j).2⟩
        · rw [Box.setMin_min_ne _ _ hj]; exact hz' j
      have e : pre ++ ((segL ++ segR) ++ post) = (pre ++ segL) ++ (segR ++ post) := by simp
      refine ⟨?_, ?_, ?_⟩
      · rw [Bool.eq_false_iff]
        exact fun hc => hz'' ((Box.containsPt_iff _ _).1 (Box.containsBox_mem hc hm))
      · simpa [euclideanTag, setBranchEuclidean] using le_trans hy1 (hy' dim).2
      · rw [e] at hy2 hz2 ⊢
        exact ih2 (pre ++ segL) _ (by simp [ho]) hndR _ h hy2 hz2 hm

end

end Pico
