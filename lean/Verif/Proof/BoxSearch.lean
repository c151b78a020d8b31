import Verif.Proof.Search

/-! # The box search -/

set_option linter.unusedSectionVars false

namespace Pico

section
variable {α : Type} [LinearOrder α] {d : Nat} {β : Type}

/-- A tree over the index range `seg` starting at position `o` whose node boxes contain the points of
the nodes.  Unlike `Built` this needs no assumption about the arithmetic or the start bounds. -/
inductive Boxed (pts : Nat → Pt α d) (setBranch : Box α d → Box α d → Fin d → β) :
    Nat → Tree β → List Nat → Box α d → Prop where
  | leaf {o : Nat} {seg : List Nat} {box : Box α d} (h : ∀ i ∈ seg, box.Mem (pts i)) :
      Boxed pts setBranch o (.leaf o (o + seg.length)) seg box
  | branch {o : Nat} {l r : Tree β} {segL segR : List Nat} {boxL boxR : Box α d} {dim : Fin d}
      (hl : Boxed pts setBranch o l segL boxL)
      (hr : Boxed pts setBranch (o + segL.length) r segR boxR) :
      Boxed pts setBranch o (.branch (setBranch boxL boxR dim) l r) (segL ++ segR)
        (boxL.fitBox boxR)

namespace Boxed
variable {pts : Nat → Pt α d} {sb : Box α d → Box α d → Fin d → β} {o : Nat} {t : Tree β}
  {seg : List Nat} {box : Box α d}

theorem mem (h : Boxed pts sb o t seg box) : ∀ i ∈ seg, box.Mem (pts i) := by
  induction h with
  | leaf h => exact h
  | branch _ _ ih1 ih2 =>
    intro i hi
    rcases List.mem_append.1 hi with hi | hi
    · exact Box.mem_fitBox_left (ih1 i hi)
    · exact Box.mem_fitBox_right (ih2 i hi)

theorem reportLeft_eq (h : Boxed pts sb o t seg box) : reportLeft t = o := by
  induction h with
  | leaf h => rfl
  | branch _ _ ih1 _ => exact ih1

theorem reportRight_eq (h : Boxed pts sb o t seg box) : reportRight t = o + seg.length := by
  induction h with
  | leaf h => rfl
  | branch _ _ _ ih2 => rw [reportRight, ih2, List.length_append]; omega

theorem reportNode_eq (h : Boxed pts sb o t seg box) (pre post acc : List Nat) (ho : o = pre.length) :
    reportNode (pre ++ (seg ++ post)) t acc = acc ++ seg := by
  cases h with
  | leaf h => subst ho; simp only [reportNode]; rw [slice_append]
  | @branch _ l r segL segR boxL boxR dim hl hr =>
    simp only [reportNode]
    rw [hl.reportLeft_eq, hr.reportRight_eq, ho]
    have e : pre.length + segL.length + segR.length = pre.length + (segL ++ segR).length := by
      rw [List.length_append]; omega
    rw [e, slice_append]

end Boxed

theorem Box.setMax_setMax (b : Box α d) (j : Fin d) (v w : α) : (b.setMax j v).setMax j w = b.setMax j w := by
  simp [Box.setMax]

theorem Box.setMin_setMin (b : Box α d) (j : Fin d) (v w : α) : (b.setMin j v).setMin j w = b.setMin j w := by
  simp [Box.setMin]

theorem Box.setMax_self (b : Box α d) (j : Fin d) : b.setMax j (b.max j) = b := by
  simp [Box.setMax]

theorem Box.setMin_self (b : Box α d) (j : Fin d) : b.setMin j (b.min j) = b := by
  simp [Box.setMin]

/-- What the box search needs of a branch node and of the query predicates. -/
structure BoxQuery (pts : Nat → Pt α d) (sb : Box α d → Box α d → Fin d → β)
    (splitDim : β → Fin d) (leftMax rightMin : β → α) (containsPt : Nat → Bool)
    (intersectsLeft intersectsRight : β → Bool) : Prop where
  dim : ∀ bl br j, splitDim (sb bl br j) = j
  left : ∀ bl br j, leftMax (sb bl br j) = bl.max j
  right : ∀ bl br j, rightMin (sb bl br j) = br.min j
  meetsLeft : ∀ (bl br : Box α d) j i, bl.Mem (pts i) → containsPt i = true →
    intersectsLeft (sb bl br j) = true
  meetsRight : ∀ (bl br : Box α d) j i, br.Mem (pts i) → containsPt i = true →
    intersectsRight (sb bl br j) = true

section Search
variable {pts : Nat → Pt α d} {sb : Box α d → Box α d → Fin d → β}
  {splitDim : β → Fin d} {leftMax rightMin : β → α} {containsPt : Nat → Bool}
  {containsBox : Box α d → Bool} {intersectsLeft intersectsRight : β → Bool}

/-- If the running box contains the points of the node, exactly the contained points are reported,
in the order of the index list. -/
theorem searchBox_exact
    (hq : BoxQuery pts sb splitDim leftMax rightMin containsPt intersectsLeft intersectsRight)
    (hbox : ∀ (b : Box α d) i, containsBox b = true → b.Mem (pts i) → containsPt i = true)
    {o : Nat} {t : Tree β} {seg : List Nat} {box : Box α d} (h : Boxed pts sb o t seg box)
    (pre post : List Nat) (ho : o = pre.length) (B : Box α d) (hB : ∀ i ∈ seg, B.Mem (pts i))
    (acc : List Nat) :
    searchBox splitDim leftMax rightMin containsPt containsBox intersectsLeft intersectsRight
      (pre ++ (seg ++ post)) t (B, acc) = (B, acc ++ seg.filter containsPt) := by
  induction h generalizing pre post B acc with
  | @leaf o seg box h =>
    subst ho
    simp only [searchBox]
    rw [slice_append]
  | @branch o l r segL segR boxL boxR dim hl hr ih1 ih2 =>
    have e1 : pre ++ ((segL ++ segR) ++ post) = pre ++ (segL ++ (segR ++ post)) := by simp
    have e2 : pre ++ (segL ++ (segR ++ post)) = (pre ++ segL) ++ (segR ++ post) := by simp
    have hBL : ∀ i ∈ segL, (B.setMax dim (boxL.max dim)).Mem (pts i) := by
      intro i hi j
      have h1 := hB i (List.mem_append_left _ hi) j
      by_cases hj : j = dim
      · subst hj; simpa using ⟨h1.1, (hl.mem i hi j).2⟩
      · rw [Box.setMax_max_ne _ _ hj]; exact h1
    have hBR : ∀ i ∈ segR, (B.setMin dim (boxR.min dim)).Mem (pts i) := by
      intro i hi j
      have h1 := hB i (List.mem_append_right _ hi) j
      by_cases hj : j = dim
      · subst hj; simpa using ⟨(hr.mem i hi j).1, h1.2⟩
      · rw [Box.setMin_min_ne _ _ hj]; exact h1
    have hL : (if containsBox (B.setMax dim (boxL.max dim)) then
          (B.setMax dim (boxL.max dim), reportNode (pre ++ (segL ++ (segR ++ post))) l acc)
        else if intersectsLeft (sb boxL boxR dim) then
          searchBox splitDim leftMax rightMin containsPt containsBox intersectsLeft intersectsRight
            (pre ++ (segL ++ (segR ++ post))) l (B.setMax dim (boxL.max dim), acc)
        else (B.setMax dim (boxL.max dim), acc)) =
        (B.setMax dim (boxL.max dim), acc ++ segL.filter containsPt) := by
      split_ifs with h1 h2
      · rw [hl.reportNode_eq pre _ acc ho, List.filter_eq_self.2 fun i hi => hbox _ i h1 (hBL i hi)]
      · exact ih1 pre _ ho _ hBL acc
      · rw [List.filter_eq_nil_iff.2, List.append_nil]
        intro i hi hc
        exact h2 (hq.meetsLeft _ _ _ i (hl.mem i hi) hc)
    have hR : ∀ acc', (if containsBox (B.setMin dim (boxR.min dim)) then
          (B.setMin dim (boxR.min dim), reportNode (pre ++ (segL ++ (segR ++ post))) r acc')
        else if intersectsRight (sb boxL boxR dim) then
          searchBox splitDim leftMax rightMin containsPt containsBox intersectsLeft intersectsRight
            (pre ++ (segL ++ (segR ++ post))) r (B.setMin dim (boxR.min dim), acc')
        else (B.setMin dim (boxR.min dim), acc')) =
        (B.setMin dim (boxR.min dim), acc' ++ segR.filter containsPt) := by
      intro acc'
      have ho' : o + segL.length = (pre ++ segL).length := by simp [ho]
      rw [e2]
      split_ifs with h1 h2
      · rw [hr.reportNode_eq (pre ++ segL) _ acc' ho',
          List.filter_eq_self.2 fun i hi => hbox _ i h1 (hBR i hi)]
      · exact ih2 (pre ++ segL) _ ho' _ hBR acc'
      · rw [List.filter_eq_nil_iff.2, List.append_nil]
        intro i hi hc
        exact h2 (hq.meetsRight _ _ _ i (hr.mem i hi) hc)
    rw [e1]
    simp only [searchBox, hq.dim, hq.left, hq.right, hL, Box.setMax_setMax, Box.setMax_self, hR,
      Box.setMin_setMin, Box.setMin_self, List.filter_append, List.append_assoc]

/-- Whatever the running box is: some of the points of the node are reported, each at most once, and
all contained points are among them. -/
theorem searchBox_complete
    (hq : BoxQuery pts sb splitDim leftMax rightMin containsPt intersectsLeft intersectsRight)
    {o : Nat} {t : Tree β} {seg : List Nat} {box : Box α d} (h : Boxed pts sb o t seg box)
    (pre post : List Nat) (ho : o = pre.length) (B : Box α d) (acc : List Nat) :
    ∃ sel, searchBox splitDim leftMax rightMin containsPt containsBox intersectsLeft intersectsRight
      (pre ++ (seg ++ post)) t (B, acc) = (B, acc ++ sel) ∧ sel.Sublist seg ∧
      ∀ i ∈ seg, containsPt i = true → i ∈ sel := by
  induction h generalizing pre post B acc with
  | @leaf o seg box h =>
    subst ho
    refine ⟨seg.filter containsPt, ?_, List.filter_sublist, fun i hi hc => List.mem_filter.2 ⟨hi, hc⟩⟩
    simp only [searchBox]
    rw [slice_append]
  | @branch o l r segL segR boxL boxR dim hl hr ih1 ih2 =>
    have e1 : pre ++ ((segL ++ segR) ++ post) = pre ++ (segL ++ (segR ++ post)) := by simp
    have e2 : pre ++ (segL ++ (segR ++ post)) = (pre ++ segL) ++ (segR ++ post) := by simp
    have hL : ∃ sel, (if containsBox (B.setMax dim (boxL.max dim)) then
          (B.setMax dim (boxL.max dim), reportNode (pre ++ (segL ++ (segR ++ post))) l acc)
        else if intersectsLeft (sb boxL boxR dim) then
          searchBox splitDim leftMax rightMin containsPt containsBox intersectsLeft intersectsRight
            (pre ++ (segL ++ (segR ++ post))) l (B.setMax dim (boxL.max dim), acc)
        else (B.setMax dim (boxL.max dim), acc)) =
        (B.setMax dim (boxL.max dim), acc ++ sel) ∧ sel.Sublist segL ∧
        ∀ i ∈ segL, containsPt i = true → i ∈ sel := by
      split_ifs with h1 h2
      · exact ⟨segL, by rw [hl.reportNode_eq pre _ acc ho], List.Sublist.refl _, fun i hi _ => hi⟩
      · exact ih1 pre _ ho _ acc
      · refine ⟨[], by simp, List.nil_sublist _, ?_⟩
        intro i hi hc
        exact absurd (hq.meetsLeft _ _ _ i (hl.mem i hi) hc) h2
    obtain ⟨selL, hL, hsL, hcL⟩ := hL
    have hR : ∃ sel, (if containsBox (B.setMin dim (boxR.min dim)) then
          (B.setMin dim (boxR.min dim), reportNode (pre ++ (segL ++ (segR ++ post))) r (acc ++ selL))
        else if intersectsRight (sb boxL boxR dim) then
          searchBox splitDim leftMax rightMin containsPt containsBox intersectsLeft intersectsRight
            (pre ++ (segL ++ (segR ++ post))) r (B.setMin dim (boxR.min dim), acc ++ selL)
        else (B.setMin dim (boxR.min dim), acc ++ selL)) =
        (B.setMin dim (boxR.min dim), (acc ++ selL) ++ sel) ∧ sel.Sublist segR ∧
        ∀ i ∈ segR, containsPt i = true → i ∈ sel := by
      have ho' : o + segL.length = (pre ++ segL).length := by simp [ho]
      rw [e2]
      split_ifs with h1 h2
      · exact ⟨segR, by rw [hr.reportNode_eq (pre ++ segL) _ _ ho'], List.Sublist.refl _,
          fun i hi _ => hi⟩
      · exact ih2 (pre ++ segL) _ ho' _ _
      · refine ⟨[], by simp, List.nil_sublist _, ?_⟩
        intro i hi hc
        exact absurd (hq.meetsRight _ _ _ i (hr.mem i hi) hc) h2
    obtain ⟨selR, hR, hsR, hcR⟩ := hR
    refine ⟨selL ++ selR, ?_, hsL.append hsR, ?_⟩
    · rw [e1]
      simp only [searchBox, hq.dim, hq.left, hq.right, hL, Box.setMax_setMax, Box.setMax_self, hR,
        Box.setMin_setMin, Box.setMin_self, List.append_assoc]
    · intro i hi hc
      rcases List.mem_append.1 hi with hi | hi
      · exact List.mem_append_left _ (hcL i hi hc)
      · exact List.mem_append_right _ (hcR i hi hc)

end Search

/-- A finished `create_node` call establishes the invariant. -/
theorem Created.boxed [Add α] [Sub α] {C : BuildCfg α d β} {depth : Int}
    {o : Nat} {seg : List Nat} {box : Box α d} {t : Tree β} {seg' : List Nat} {box' : Box α d}
    (h : Created C depth o seg box t seg' box') : Boxed C.pts C.setBranch o t seg' box' := by
  induction h with
  | leaf hl => exact .leaf leafBox_mem
  | @branch depth o seg box sp l r segL segR boxL boxR hl hs hL hR ih1 ih2 =>
    have hlen : segL.length = sp.pos := by rw [hL.perm.length_eq]; exact splitter_take_length hs
    rw [← hlen] at ih2
    exact .branch ih1 ih2

/-! ## The two query kinds -/

theorem Box.containsBox_mem {q b : Box α d} {p : Pt α d} (h : q.containsBox b = true) (hp : b.Mem p) :
    q.containsPt p = true := by
  simp only [Box.containsBox, Bool.and_eq_true, Box.containsPt_iff] at h
  rw [Box.containsPt_iff]
  intro j
  exact ⟨(h.1 j).1.trans (hp j).1, (hp j).2.trans (h.2 j).2⟩

/-- Membership in a box query on a product of lines and circles. -/
def TopMem (space : Fin d → OneSpace) (q : Box α d) (x : Pt α d) : Prop :=
  ∀ j, match space j with
    | .r1 => q.min j ≤ x j ∧ x j ≤ q.max j
    | .s1 => if q.min j ≤ q.max j then q.min j ≤ x j ∧ x j ≤ q.max j
             else q.min j ≤ x j ∨ x j ≤ q.max j

theorem Box.topContainsPt_iff (space : Fin d → OneSpace) (q : Box α d) (x : Pt α d) :
    q.topContainsPt space x = true ↔ TopMem space q x := by
  simp only [Box.topContainsPt, TopMem, List.all_eq_true, List.mem_finRange, forall_const]
  refine forall_congr' fun j => ?_
  cases space j with
  | r1 => simp [Segment.r1Contains]
  | s1 =>
    simp only [Segment.s1Contains, Segment.s1Linear, decide_eq_true_eq]
    split_ifs <;> simp

theorem Box.topContainsBox_mem {space : Fin d → OneSpace} {q b : Box α d} {p : Pt α d}
    (h : q.topContainsBox space b = true) (hp : b.Mem p) : q.topContainsPt space p = true := by
  simp only [Box.topContainsBox, List.all_eq_true, List.mem_finRange, forall_const] at h
  rw [Box.topContainsPt_iff]
  intro j
  have h := h j
  have hp := hp j
  cases hs : space j with
  | r1 =>
    simp only [hs, Segment.r1ContainsSeg, Bool.and_eq_true, decide_eq_true_eq] at h ⊢
    exact ⟨h.1.trans hp.1, hp.2.trans h.2⟩
  | s1 =>
    simp only [hs, Segment.s1ContainsSeg, Segment.s1Linear, decide_eq_true_eq] at h ⊢
    by_cases hl : q.min j ≤ q.max j
    · simp only [hl, if_true, Bool.and_eq_true, decide_eq_true_eq] at h ⊢
      exact ⟨h.1.trans hp.1, hp.2.trans h.2⟩
    · simp only [hl, if_false, Bool.or_eq_true, decide_eq_true_eq] at h ⊢
      rcases h with h | h
      · exact Or.inl (le_trans h hp.1)
      · exact Or.inr (hp.2.trans h)

section Tags
variable [Zero α] [One α] [Add α] [Sub α] [Neg α]

theorem boxQuery_euclidean (M : Metric α d) (q : Box α d) (pts : Nat → Pt α d) :
    BoxQuery pts (euclideanTag α d).setBranch (euclideanTag α d).splitDim (euclideanTag α d).leftMax
      (euclideanTag α d).rightMin (fun i => (euclideanTag α d).containsPt M q (pts i))
      ((euclideanTag α d).intersectsLeft q) ((euclideanTag α d).intersectsRight q) where
  dim _ _ _ := rfl
  left _ _ _ := rfl
  right _ _ _ := rfl
  meetsLeft bl br j i h1 h2 := by
    simp only [euclideanTag, Box.containsPt_iff] at h2
    simp only [euclideanTag, setBranchEuclidean, decide_eq_true_eq]
    exact (h2 j).1.trans (h1 j).2
  meetsRight bl br j i h1 h2 := by
    simp only [euclideanTag, Box.containsPt_iff] at h2
    simp only [euclideanTag, setBranchEuclidean, decide_eq_true_eq]
    exact le_trans (h1 j).1 (h2 j).2

theorem boxQuery_topological (M : Metric α d) (q : Box α d) (pts : Nat → Pt α d) :
    BoxQuery pts (topologicalTag α d).setBranch (topologicalTag α d).splitDim
      (topologicalTag α d).leftMax (topologicalTag α d).rightMin
      (fun i => (topologicalTag α d).containsPt M q (pts i))
      ((topologicalTag α d).intersectsLeft q) ((topologicalTag α d).intersectsRight q) where
  dim _ _ _ := rfl
  left _ _ _ := rfl
  right _ _ _ := rfl
  meetsLeft bl br j i h1 h2 := by
    simp only [topologicalTag, Box.topContainsPt_iff] at h2
    simp only [topologicalTag, setBranchTopological, Bool.or_eq_true, decide_eq_true_eq]
    have h2 := h2 j
    have h1 := h1 j
    cases hs : M.space j with
    | r1 => simp only [hs] at h2; exact Or.inl (h2.1.trans h1.2)
    | s1 =>
      simp only [hs] at h2
      split_ifs at h2
      · exact Or.inl (h2.1.trans h1.2)
      · rcases h2 with h2 | h2
        · exact Or.inl (h2.trans h1.2)
        · exact Or.inr (le_trans h1.1 h2)
  meetsRight bl br j i h1 h2 := by
    simp only [topologicalTag, Box.topContainsPt_iff] at h2
    simp only [topologicalTag, setBranchTopological, Bool.or_eq_true, decide_eq_true_eq]
    have h2 := h2 j
    have h1 := h1 j
    cases hs : M.space j with
    | r1 => simp only [hs] at h2; exact Or.inl (le_trans h1.1 h2.2)
    | s1 =>
      simp only [hs] at h2
      split_ifs at h2
      · exact Or.inl (le_trans h1.1 h2.2)
      · rcases h2 with h2 | h2
        · exact Or.inr (h2.trans h1.2)
        · exact Or.inl (le_trans h1.1 h2)

end Tags

end

end Pico
