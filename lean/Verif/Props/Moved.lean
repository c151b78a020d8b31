import Verif.Model.Moved
import Verif.Proof.BoxRead
import Verif.Props.Box
import Verif.Props.Query

/-!
# C123: points that change after the construction
-/

set_option linter.unusedSectionVars false

namespace Pico.Props

open Pico Spec

/-! ## What is asked of the new points -/

section Stay
variable {α : Type} [LinearOrder α] {d : Nat} {β : Type}

/-- The points with these numbers are in the leaves of `t`. -/
def inLeaves (indices : List Nat) (t : Tree β) (i : Nat) : Prop :=
  ∃ r ∈ ranges t, ∃ p, r.1 ≤ p ∧ p < r.2 ∧ indices[p]? = some i

/-- At every branch the points of the left child are not above `left_max` and those of the right child not below
`right_min`. -/
def StaysLine (indices : List Nat) (pts : Nat → Pt α d) : Tree (Branch1 α d) → Prop
  | .leaf _ _ => True
  | .branch b l r =>
    (∀ i, inLeaves indices l i → pts i b.splitDim ≤ b.leftMax) ∧
    (∀ i, inLeaves indices r i → b.rightMin ≤ pts i b.splitDim) ∧
    StaysLine indices pts l ∧ StaysLine indices pts r

/-- At every branch the points of each child are between the two numbers that the branch holds for it. -/
def StaysTop (indices : List Nat) (pts : Nat → Pt α d) : Tree (Branch2 α d) → Prop
  | .leaf _ _ => True
  | .branch b l r =>
    (∀ i, inLeaves indices l i → b.leftMin ≤ pts i b.splitDim ∧ pts i b.splitDim ≤ b.leftMax) ∧
    (∀ i, inLeaves indices r i → b.rightMin ≤ pts i b.splitDim ∧ pts i b.splitDim ≤ b.rightMax) ∧
    StaysTop indices pts l ∧ StaysTop indices pts r

/-- Every new point is in the smallest box around the old points of its leaf. -/
def StaysInLeaf (indices : List Nat) (old new : Nat → Pt α d) (t : Tree β) : Prop :=
  ∀ r ∈ ranges t, ∀ i ∈ slice indices r.1 r.2, ∀ j,
    (∃ a ∈ slice indices r.1 r.2, old a j ≤ new i j) ∧ ∃ c ∈ slice indices r.1 r.2, new i j ≤ old c j

theorem mem_slice_iff {indices : List Nat} {b e i : Nat} :
    i ∈ slice indices b e ↔ ∃ p, b ≤ p ∧ p < e ∧ indices[p]? = some i := by
  unfold slice
  rw [List.mem_iff_getElem?]
  constructor
  · rintro ⟨k, hk⟩
    rw [List.getElem?_take] at hk
    split_ifs at hk with h
    rw [List.getElem?_drop] at hk
    exact ⟨b + k, by omega, by omega, hk⟩
  · rintro ⟨p, h1, h2, h3⟩
    refine ⟨p - b, ?_⟩
    rw [List.getElem?_take, if_pos (by omega), List.getElem?_drop, show b + (p - b) = p by omega]
    exact h3

theorem inLeaves_iff {indices : List Nat} {t : Tree β} {i : Nat} : inLeaves indices t i ↔ i ∈ t.elems indices := by
  unfold inLeaves
  rw [elems_eq_ranges, List.mem_flatMap]
  refine exists_congr fun r => and_congr_right fun _ => ?_
  exact mem_slice_iff.symm

/-! ## The unchanged points -/

theorem staysLine_built {pts : Nat → Pt α d} {o : Nat} {t : Tree (Branch1 α d)} {seg : List Nat} {box : Box α d}
    (h : Boxed pts setBranchEuclidean o t seg box) (pre post : List Nat) (ho : o = pre.length) :
    StaysLine (pre ++ (seg ++ post)) pts t := by
  induction h generalizing pre post with
  | leaf _ => trivial
  | @branch o l r segL segR boxL boxR dim hl hr ih1 ih2 =>
    have hel := hl.elems_eq pre (segR ++ post) ho
    have her := hr.elems_eq (pre ++ segL) post (by simp [ho])
    have g1 := ih1 pre (segR ++ post) ho
    have g2 := ih2 (pre ++ segL) post (by simp [ho])
    simp only [List.append_assoc] at hel her g1 g2 ⊢
    refine ⟨fun i hi => ?_, fun i hi => ?_, g1, g2⟩
    · rw [inLeaves_iff, hel] at hi
      exact (hl.mem i hi dim).2
    · rw [inLeaves_iff, her] at hi
      exact (hr.mem i hi dim).1

theorem staysTop_built {pts : Nat → Pt α d} {o : Nat} {t : Tree (Branch2 α d)} {seg : List Nat} {box : Box α d}
    (h : Boxed pts setBranchTopological o t seg box) (pre post : List Nat) (ho : o = pre.length) :
    StaysTop (pre ++ (seg ++ post)) pts t := by
  induction h generalizing pre post with
  | leaf _ => trivial
  | @branch o l r segL segR boxL boxR dim hl hr ih1 ih2 =>
    have hel := hl.elems_eq pre (segR ++ post) ho
    have her := hr.elems_eq (pre ++ segL) post (by simp [ho])
    have g1 := ih1 pre (segR ++ post) ho
    have g2 := ih2 (pre ++ segL) post (by simp [ho])
    simp only [List.append_assoc] at hel her g1 g2 ⊢
    refine ⟨fun i hi => ?_, fun i hi => ?_, g1, g2⟩
    · rw [inLeaves_iff, hel] at hi
      exact hl.mem i hi dim
    · rw [inLeaves_iff, her] at hi
      exact hr.mem i hi dim

theorem StaysInLeaf.left {indices : List Nat} {old new : Nat → Pt α d} {b : β} {l r : Tree β}
    (h : StaysInLeaf indices old new (.branch b l r)) : StaysInLeaf indices old new l :=
  fun x hx => h x (by rw [ranges_branch]; exact List.mem_append_left _ hx)

theorem StaysInLeaf.right {indices : List Nat} {old new : Nat → Pt α d} {b : β} {l r : Tree β}
    (h : StaysInLeaf indices old new (.branch b l r)) : StaysInLeaf indices old new r :=
  fun x hx => h x (by rw [ranges_branch]; exact List.mem_append_right _ hx)

theorem StaysInLeaf.between {indices : List Nat} {old new : Nat → Pt α d} {t : Tree β}
    (h : StaysInLeaf indices old new t) {i : Nat} (hi : inLeaves indices t i) (j : Fin d) :
    (∃ a, inLeaves indices t a ∧ old a j ≤ new i j) ∧ ∃ c, inLeaves indices t c ∧ new i j ≤ old c j := by
  obtain ⟨r, hr, p, h1, h2, h3⟩ := hi
  obtain ⟨⟨a, ha, ha'⟩, c, hc, hc'⟩ := h r hr i (mem_slice_iff.2 ⟨p, h1, h2, h3⟩) j
  exact ⟨⟨a, ⟨r, hr, mem_slice_iff.1 ha⟩, ha'⟩, c, ⟨r, hr, mem_slice_iff.1 hc⟩, hc'⟩

theorem StaysLine.of_leaf {indices : List Nat} {old new : Nat → Pt α d} :
    ∀ {t : Tree (Branch1 α d)}, StaysLine indices old t → StaysInLeaf indices old new t → StaysLine indices new t
  | .leaf _ _, _, _ => trivial
  | .branch b l r, ⟨h1, h2, h3, h4⟩, h => by
    refine ⟨fun i hi => ?_, fun i hi => ?_, h3.of_leaf h.left, h4.of_leaf h.right⟩
    · obtain ⟨-, c, hc, hc'⟩ := h.left.between hi b.splitDim
      exact hc'.trans (h1 c hc)
    · obtain ⟨⟨a, ha, ha'⟩, -⟩ := h.right.between hi b.splitDim
      exact (h2 a ha).trans ha'

theorem StaysTop.of_leaf {indices : List Nat} {old new : Nat → Pt α d} :
    ∀ {t : Tree (Branch2 α d)}, StaysTop indices old t → StaysInLeaf indices old new t → StaysTop indices new t
  | .leaf _ _, _, _ => trivial
  | .branch b l r, ⟨h1, h2, h3, h4⟩, h => by
    refine ⟨fun i hi => ?_, fun i hi => ?_, h3.of_leaf h.left, h4.of_leaf h.right⟩
    · obtain ⟨⟨a, ha, ha'⟩, c, hc, hc'⟩ := h.left.between hi b.splitDim
      exact ⟨(h1 a ha).1.trans ha', hc'.trans (h1 c hc).2⟩
    · obtain ⟨⟨a, ha, ha'⟩, c, hc, hc'⟩ := h.right.between hi b.splitDim
      exact ⟨(h2 a ha).1.trans ha', hc'.trans (h2 c hc).2⟩

end Stay

section Make
variable {α : Type} [LinearOrder α] [Zero α] [One α] [Add α] [Sub α] [Neg α] {d : Nat} {β : Type}
  {tag : SpaceTag α d β} {M : Metric α d} {N : Num α} {pts new : Nat → Pt α d} {n : Nat}
  {o : BuildOpts α d} {fuel : Nat}

/-- C123: the points that the tree was built from fulfil the condition. -/
theorem c123_unmoved_line {T : KdTree α d (Branch1 α d)}
    (h : KdTree.make (euclideanTag α d) M N pts n o fuel = .ok T) : StaysLine T.data.indices pts T.data.root := by
  obtain ⟨box, hc⟩ := created_of_make h
  have := staysLine_built hc.boxed [] [] rfl
  rw [List.nil_append, List.append_nil] at this
  exact this

/-- C123: the same for topological spaces. -/
theorem c123_unmoved_top {T : KdTree α d (Branch2 α d)}
    (h : KdTree.make (topologicalTag α d) M N pts n o fuel = .ok T) : StaysTop T.data.indices pts T.data.root := by
  obtain ⟨box, hc⟩ := created_of_make h
  have := staysTop_built hc.boxed [] [] rfl
  rw [List.nil_append, List.append_nil] at this
  exact this

/-- C123: points that stay in the smallest box around the old points of their leaf fulfil it. -/
theorem c123_leaf_line {T : KdTree α d (Branch1 α d)}
    (h : KdTree.make (euclideanTag α d) M N pts n o fuel = .ok T)
    (hs : StaysInLeaf T.data.indices pts new T.data.root) : StaysLine T.data.indices new T.data.root :=
  (c123_unmoved_line h).of_leaf hs

theorem c123_leaf_top {T : KdTree α d (Branch2 α d)}
    (h : KdTree.make (topologicalTag α d) M N pts n o fuel = .ok T)
    (hs : StaysInLeaf T.data.indices pts new T.data.root) : StaysTop T.data.indices new T.data.root :=
  (c123_unmoved_top h).of_leaf hs

/-! ## Without any condition: what is reported is genuine -/

/-- C123: wherever the points went, every visitor is shown each point at most once, with the distance to where the point
is now. -/
theorem c123_visitor {T : KdTree α d β} (h : KdTree.make tag M N pts n o fuel = .ok T) (q : Pt α d) {σ : Type}
    (V : Visitor α σ) (s : σ) :
    ∃ vis : List Nat, vis.Nodup ∧ (∀ i ∈ vis, i < n) ∧
      (T.moved new).searchNearest q V s = vis.foldl (fun s i => V.visit s i (M.dist q (new i))) s := by
  obtain ⟨h1, _, h3⟩ := c16_partition h
  obtain ⟨_, rfl, rfl, rfl, rfl, _⟩ := KdTree.make_ok h
  obtain ⟨vis, skip, hp, he⟩ := searchNearest_struct T.tag.splitDim (T.tag.pick T.metric q) V
    (fun i => T.metric.dist q (new i)) T.data.indices T.data.root 0 (fun _ => 0, s)
  rw [elems_eq_ranges, h3] at hp
  have hp' := hp.trans h1
  refine ⟨vis, (List.nodup_append.1 (hp'.nodup_iff.2 List.nodup_range)).1, ?_, ?_⟩
  · intro i hi
    exact List.mem_range.1 (hp'.subset (List.mem_append_left _ hi))
  · unfold KdTree.searchNearest searchNearestRoot KdTree.moved
    dsimp only
    rw [he]
    rfl

end Make

/-! ## Box search -/

section Boxes
variable {α : Type} [LinearOrder α] {d : Nat} {β : Type} {pts new : Nat → Pt α d} {sb : Box α d → Box α d → Fin d → β}
  {splitDim : β → Fin d} {leftMax rightMin : β → α} {containsPt : Nat → Bool}
  {containsBox : Box α d → Bool} {intersectsLeft intersectsRight : β → Bool}

/-- What a branch with the children `l`, `r` has to fulfil for the new points, in a tree that was built from others. -/
inductive Stays (splitDim : β → Fin d) (leftMax rightMin : β → α) (new : Nat → Pt α d) (indices : List Nat)
    (meetsLeft meetsRight : β → Nat → Prop) : Tree β → Prop
  | leaf {b e : Nat} : Stays splitDim leftMax rightMin new indices meetsLeft meetsRight (.leaf b e)
  | branch {b : β} {l r : Tree β}
      (h1 : ∀ i ∈ l.elems indices, new i (splitDim b) ≤ leftMax b ∧ meetsLeft b i)
      (h2 : ∀ i ∈ r.elems indices, rightMin b ≤ new i (splitDim b) ∧ meetsRight b i)
      (hl : Stays splitDim leftMax rightMin new indices meetsLeft meetsRight l)
      (hr : Stays splitDim leftMax rightMin new indices meetsLeft meetsRight r) :
      Stays splitDim leftMax rightMin new indices meetsLeft meetsRight (.branch b l r)

theorem searchBox_moved
    (hdim : ∀ bl br j, splitDim (sb bl br j) = j) (hleft : ∀ bl br j, leftMax (sb bl br j) = bl.max j)
    (hright : ∀ bl br j, rightMin (sb bl br j) = br.min j)
    (hbox : ∀ (b : Box α d) i, containsBox b = true → b.Mem (new i) → containsPt i = true)
    {o : Nat} {t : Tree β} {seg : List Nat} {box : Box α d} (h : Boxed pts sb o t seg box)
    (pre post : List Nat) (ho : o = pre.length)
    (hs : Stays splitDim leftMax rightMin new (pre ++ (seg ++ post))
      (fun b i => containsPt i = true → intersectsLeft b = true)
      (fun b i => containsPt i = true → intersectsRight b = true) t)
    (B : Box α d) (hB : ∀ i ∈ seg, B.Mem (new i)) (acc : List Nat) :
    searchBox splitDim leftMax rightMin containsPt containsBox intersectsLeft intersectsRight
      (pre ++ (seg ++ post)) t (B, acc) = (B, acc ++ seg.filter containsPt) := by
  induction h generalizing pre post B acc with
  | @leaf o seg box h =>
    subst ho
    simp only [searchBox]
    rw [slice_append]
  | @branch o l r segL segR boxL boxR dim hl hr ih1 ih2 =>
    have e1 : pre ++ ((segL ++ segR) ++ post) = pre ++ (segL ++ (segR ++ post)) := by simp
    have e2 : pre ++ (segL ++ (segR ++ post)) = (pre ++ segL) ++ (segR ++ post) := by simp
    have ho' : o + segL.length = (pre ++ segL).length := by simp [ho]
    rw [e1] at hs ⊢
    obtain - | ⟨s1, s2, sl, sr⟩ := hs
    rw [hl.elems_eq pre _ ho] at s1
    rw [e2, hr.elems_eq (pre ++ segL) _ ho'] at s2
    simp only [hdim, hleft, hright] at s1 s2
    have hBL : ∀ i ∈ segL, (B.setMax dim (boxL.max dim)).Mem (new i) := by
      intro i hi j
      have h1 := hB i (List.mem_append_left _ hi) j
      by_cases hj : j = dim
      · subst hj; simpa using ⟨h1.1, (s1 i hi).1⟩
      · rw [Box.setMax_max_ne _ _ hj]; exact h1
    have hBR : ∀ i ∈ segR, (B.setMin dim (boxR.min dim)).Mem (new i) := by
      intro i hi j
      have h1 := hB i (List.mem_append_right _ hi) j
      by_cases hj : j = dim
      · subst hj; simpa using ⟨(s2 i hi).1, h1.2⟩
      · rw [Box.setMin_min_ne _ _ hj]; exact h1
    have hL : (if containsBox (B.setMax dim (boxL.max dim)) then
          (B.setMax dim (boxL.max dim), reportNode (pre ++ (segL ++ (segR ++ post))) l acc)
        else if intersectsLeft (sb boxL boxR dim) then
          searchBox splitDim leftMax rightMin containsPt containsBox intersectsLeft intersectsRight
            (pre ++ (segL ++ (segR ++ post))) l (B.setMax dim (boxL.max dim), acc)
        else (B.setMax dim (boxL.max dim), acc)) =
        (B.setMax dim (boxL.max dim), acc ++ segL.filter containsPt) := by
      split_ifs with h1 h2
      · rw [hl.reportNode_eq pre _ acc ho, List.filter_eq_self.2 fun i hi => hbox _ i h1 (hBL i hi)]
      · exact ih1 pre _ ho sl _ hBL acc
      · rw [List.filter_eq_nil_iff.2, List.append_nil]
        intro i hi hc
        exact h2 ((s1 i hi).2 hc)
    have hR : ∀ acc', (if containsBox (B.setMin dim (boxR.min dim)) then
          (B.setMin dim (boxR.min dim), reportNode (pre ++ (segL ++ (segR ++ post))) r acc')
        else if intersectsRight (sb boxL boxR dim) then
          searchBox splitDim leftMax rightMin containsPt containsBox intersectsLeft intersectsRight
            (pre ++ (segL ++ (segR ++ post))) r (B.setMin dim (boxR.min dim), acc')
        else (B.setMin dim (boxR.min dim), acc')) =
        (B.setMin dim (boxR.min dim), acc' ++ segR.filter containsPt) := by
      intro acc'
      rw [e2] at sr ⊢
      split_ifs with h1 h2
      · rw [hr.reportNode_eq (pre ++ segL) _ acc' ho',
          List.filter_eq_self.2 fun i hi => hbox _ i h1 (hBR i hi)]
      · exact ih2 (pre ++ segL) _ ho' sr _ hBR acc'
      · rw [List.filter_eq_nil_iff.2, List.append_nil]
        intro i hi hc
        exact h2 ((s2 i hi).2 hc)
    simp only [searchBox, hdim, hleft, hright, hL, Box.setMax_setMax, Box.setMax_self, hR,
      Box.setMin_setMin, Box.setMin_self, List.filter_append, List.append_assoc]

end Boxes

section MakeBox
variable {α : Type} [LinearOrder α] [Zero α] [One α] [Add α] [Sub α] [Neg α] {d : Nat} {β : Type}
  {tag : SpaceTag α d β} {M : Metric α d} {N : Num α} {pts new : Nat → Pt α d} {n : Nat}
  {o : BuildOpts α d} {fuel : Nat}

theorem searchBox_moved_filter {T : KdTree α d β} (h : KdTree.make tag M N pts n o fuel = .ok T)
    (mn mx : Pt α d) (hB : ∀ i < n, ∀ j, T.data.rootBox.min j ≤ new i j ∧ new i j ≤ T.data.rootBox.max j)
    (hq : BoxQuery new tag.setBranch tag.splitDim tag.leftMax tag.rightMin
      (fun i => tag.containsPt M ⟨mn, mx⟩ (new i)) (tag.intersectsLeft ⟨mn, mx⟩)
      (tag.intersectsRight ⟨mn, mx⟩))
    (hbox : ∀ (b : Box α d) i, tag.containsBox M ⟨mn, mx⟩ b = true → b.Mem (new i) →
      tag.containsPt M ⟨mn, mx⟩ (new i) = true)
    (hs : Stays tag.splitDim tag.leftMax tag.rightMin new T.data.indices
      (fun b i => tag.containsPt M ⟨mn, mx⟩ (new i) = true → tag.intersectsLeft ⟨mn, mx⟩ b = true)
      (fun b i => tag.containsPt M ⟨mn, mx⟩ (new i) = true → tag.intersectsRight ⟨mn, mx⟩ b = true) T.data.root)
    (prior : List Nat) :
    (T.moved new).searchBox mn mx prior = T.data.indices.filter fun i => tag.containsPt M ⟨mn, mx⟩ (new i) := by
  obtain ⟨box, hc⟩ := created_of_make h
  have := searchBox_moved (containsBox := tag.containsBox M ⟨mn, mx⟩) hq.dim hq.left hq.right hbox hc.boxed [] [] rfl
    (by rw [List.nil_append, List.append_nil]; exact hs) T.data.rootBox
    (fun i hi => hB i (List.mem_range.1 (hc.perm.subset hi))) []
  obtain ⟨h1, h2, _, h4, _, _⟩ := KdTree.make_ok h
  simp only [List.nil_append, List.append_nil] at this
  simp only [KdTree.moved, KdTree.searchBox, KdTree.clearIdxs, h1, h2]
  rw [this]

theorem StaysLine.stays {indices : List Nat} {mn mx : Pt α d} : ∀ {t : Tree (Branch1 α d)}, StaysLine indices new t →
    Stays (euclideanTag α d).splitDim (euclideanTag α d).leftMax (euclideanTag α d).rightMin new indices
      (fun b i => (euclideanTag α d).containsPt M ⟨mn, mx⟩ (new i) = true →
        (euclideanTag α d).intersectsLeft ⟨mn, mx⟩ b = true)
      (fun b i => (euclideanTag α d).containsPt M ⟨mn, mx⟩ (new i) = true →
        (euclideanTag α d).intersectsRight ⟨mn, mx⟩ b = true) t
  | .leaf _ _, _ => .leaf
  | .branch b l r, ⟨h1, h2, h3, h4⟩ => by
    refine .branch (fun i hi => ?_) (fun i hi => ?_) h3.stays h4.stays
    · have := h1 i (inLeaves_iff.2 hi)
      refine ⟨this, fun hc => ?_⟩
      simp only [euclideanTag, Box.containsPt_iff] at hc
      simp only [euclideanTag, decide_eq_true_eq]
      exact (hc b.splitDim).1.trans this
    · have := h2 i (inLeaves_iff.2 hi)
      refine ⟨this, fun hc => ?_⟩
      simp only [euclideanTag, Box.containsPt_iff] at hc
      simp only [euclideanTag, decide_eq_true_eq]
      exact le_trans this (hc b.splitDim).2

theorem StaysTop.stays {indices : List Nat} {mn mx : Pt α d} : ∀ {t : Tree (Branch2 α d)}, StaysTop indices new t →
    Stays (topologicalTag α d).splitDim (topologicalTag α d).leftMax (topologicalTag α d).rightMin new indices
      (fun b i => (topologicalTag α d).containsPt M ⟨mn, mx⟩ (new i) = true →
        (topologicalTag α d).intersectsLeft ⟨mn, mx⟩ b = true)
      (fun b i => (topologicalTag α d).containsPt M ⟨mn, mx⟩ (new i) = true →
        (topologicalTag α d).intersectsRight ⟨mn, mx⟩ b = true) t
  | .leaf _ _, _ => .leaf
  | .branch b l r, ⟨h1, h2, h3, h4⟩ => by
    refine .branch (fun i hi => ?_) (fun i hi => ?_) h3.stays h4.stays
    · have := h1 i (inLeaves_iff.2 hi)
      refine ⟨this.2, fun hc => ?_⟩
      simp only [topologicalTag, Box.topContainsPt_iff] at hc
      simp only [topologicalTag, Bool.or_eq_true, decide_eq_true_eq]
      have hc := hc b.splitDim
      cases hsp : M.space b.splitDim with
      | r1 => simp only [hsp] at hc; exact Or.inl (hc.1.trans this.2)
      | s1 =>
        simp only [hsp] at hc
        split_ifs at hc
        · exact Or.inl (hc.1.trans this.2)
        · rcases hc with hc | hc
          · exact Or.inl (hc.trans this.2)
          · exact Or.inr (le_trans this.1 hc)
    · have := h2 i (inLeaves_iff.2 hi)
      refine ⟨this.1, fun hc => ?_⟩
      simp only [topologicalTag, Box.topContainsPt_iff] at hc
      simp only [topologicalTag, Bool.or_eq_true, decide_eq_true_eq]
      have hc := hc b.splitDim
      cases hsp : M.space b.splitDim with
      | r1 => simp only [hsp] at hc; exact Or.inl (le_trans this.1 hc.2)
      | s1 =>
        simp only [hsp] at hc
        split_ifs at hc
        · exact Or.inl (le_trans this.1 hc.2)
        · rcases hc with hc | hc
          · exact Or.inr (hc.trans this.2)
          · exact Or.inl (le_trans this.1 hc)

/-- C123: points that stay in the smallest box around the old points of their leaf stay in the root box, when that
contained the old points. -/
theorem c123_root {T : KdTree α d β} (h : KdTree.make tag M N pts n o fuel = .ok T)
    (hb : BoundsContain pts n o.bounds) (hs : StaysInLeaf T.data.indices pts new T.data.root) :
    ∀ i < n, InBox T.data.rootBox.min T.data.rootBox.max (new i) := by
  obtain ⟨h1, _, h3⟩ := c16_partition h
  have hroot : T.data.rootBox = boxFromBounds N pts n o.bounds :=
    (buildTree_created (KdTree.make_ok h).2.2.2.2.2).1
  have hel : ∀ i, inLeaves T.data.indices T.data.root i ↔ i < n := by
    intro i
    rw [inLeaves_iff, elems_eq_ranges, h3, h1.mem_iff, List.mem_range]
  intro i hi j
  obtain ⟨⟨a, ha, ha'⟩, c, hc, hc'⟩ := hs.between ((hel i).2 hi) j
  rw [hroot]
  exact ⟨(boundsContain_mem (N := N) hb a ((hel a).1 ha) j).1.trans ha',
    hc'.trans (boundsContain_mem (N := N) hb c ((hel c).1 hc) j).2⟩

/-- C123, box search: exact as long as the points stay in the root box and on their sides. -/
theorem c123_box_line {T : KdTree α d (Branch1 α d)} (h : KdTree.make (euclideanTag α d) M N pts n o fuel = .ok T)
    (hs : StaysLine T.data.indices new T.data.root) (hB : ∀ i < n, InBox T.data.rootBox.min T.data.rootBox.max (new i))
    (mn mx : Pt α d) (prior : List Nat) :
    IsSelection n (fun i => InBox mn mx (new i)) ((T.moved new).searchBox mn mx prior) := by
  obtain ⟨box, hc⟩ := created_of_make h
  rw [searchBox_moved_filter h mn mx hB (boxQuery_euclidean M _ new) (fun b i h1 h2 => Box.containsBox_mem h1 h2)
    hs.stays prior]
  exact isSelection_filter hc.perm _ fun i => containsPt_iff_inBox _ _ _

/-- C123, box search in topological spaces. -/
theorem c123_box_top {T : KdTree α d (Branch2 α d)} (h : KdTree.make (topologicalTag α d) M N pts n o fuel = .ok T)
    (hs : StaysTop T.data.indices new T.data.root) (hB : ∀ i < n, InBox T.data.rootBox.min T.data.rootBox.max (new i))
    (mn mx : Pt α d) (prior : List Nat) :
    IsSelection n (fun i => InTopBox (fun j => M.space j = .s1) mn mx (new i)) ((T.moved new).searchBox mn mx prior) := by
  obtain ⟨box, hc⟩ := created_of_make h
  rw [searchBox_moved_filter h mn mx hB (boxQuery_topological M _ new)
    (fun b i h1 h2 => Box.topContainsBox_mem h1 h2) hs.stays prior]
  exact isSelection_filter hc.perm _ fun i => topContainsPt_iff_inTopBox _ _ _ _

end MakeBox

/-! ## Nearest searches -/

section Exact
variable {α : Type} [CommRing α] [LinearOrder α] [IsStrictOrderedRing α] {d : Nat} {N : Num α}
  {pts new : Nat → Pt α d} {n : Nat} {o : BuildOpts α d} {fuel : Nat}

theorem guard_moved_line {M : Metric α d} (hM : EuclideanAdditive M) (q : Pt α d) {o : Nat} {t : Tree (Branch1 α d)}
    {seg : List Nat} {box : Box α d} (h : Built pts setBranchEuclidean o t seg box) (indices : List Nat)
    (hs : StaysLine indices new t) :
    Guard (euclideanTag α d).splitDim ((euclideanTag α d).pick M q) indices (fun j i => M.one (q j - new i j)) t := by
  induction h with
  | leaf _ => trivial
  | @branch o l r segL segR boxL boxR dim hl hr hlr ih1 ih2 =>
    obtain ⟨s1, s2, s3, s4⟩ := hs
    refine ⟨?_, ih1 s3, ih2 s4⟩
    intro i hi
    simp only [setBranchEuclidean] at s1 s2
    simp only [euclideanTag, pickEuclidean, setBranchEuclidean] at hi ⊢
    by_cases hc : boxL.max dim + boxR.min dim - q dim - q dim > 0
    · simp only [if_pos hc, if_true] at hi ⊢
      have hp := s2 i (inLeaves_iff.2 hi)
      apply hM.one_mono
      have h1 : q dim ≤ boxR.min dim := by linarith
      rw [abs_of_nonneg (by linarith), abs_of_nonpos (by linarith)]
      linarith
    · simp only [if_neg hc, Bool.false_eq_true, if_false] at hi ⊢
      have hp := s1 i (inLeaves_iff.2 hi)
      apply hM.one_mono
      have h1 : boxL.max dim ≤ q dim := by linarith
      rw [abs_of_nonpos (by linarith), abs_of_nonneg (by linarith)]
      linarith

theorem exactAt_moved_line {M : Metric α d} (hM : EuclideanAdditive M) {T : KdTree α d (Branch1 α d)}
    (h : KdTree.make (euclideanTag α d) M N pts n o fuel = .ok T) (hR : Representable N pts n o) (hn : 0 < n)
    (hs : StaysLine T.data.indices new T.data.root) (q : Pt α d) : ExactAt (T.moved new) q := by
  obtain ⟨hperm, _, ⟨box, hB⟩, hel⟩ := KdTree.make_built h hR hn
  obtain ⟨h1, h2, h3, h4, h5, _⟩ := KdTree.make_ok h
  refine exactAt_of_guard (fun j i => M.one (q j - new i j)) ?_ (fun i _ j => hM.one_nonneg _) ?_ hel ?_
  · intro i _
    simp only [KdTree.moved, h2]
    exact hM.dist_eq _ _
  · simp only [KdTree.moved, h5]
    exact hperm
  · simp only [KdTree.moved, h1, h2]
    exact guard_moved_line hM q hB _ hs

/-- C123, nearest neighbor after the points moved: exact for the points of now, as long as each is still on its side of
the splits above it. -/
theorem c123_nn_line {M : Metric α d} (hM : EuclideanAdditive M) {T : KdTree α d (Branch1 α d)}
    (h : KdTree.make (euclideanTag α d) M N pts n o fuel = .ok T) (hR : Representable N pts n o) (hn : 0 < n)
    (hs : StaysLine T.data.indices new T.data.root) (q : Pt α d) (hbig : ∀ i < n, M.dist q (new i) < N.big)
    (nn : Neighbor α) : Spec.IsNN n (fun i => M.dist q (new i)) ((T.moved new).searchNn q nn) := by
  have := exactAt_moved_line hM h hR hn hs q
  obtain ⟨_, rfl, rfl, _, rfl, _⟩ := KdTree.make_ok h
  exact this.nn hn hbig nn

/-- C123, k nearest neighbors. -/
theorem c123_knn_line {M : Metric α d} (hM : EuclideanAdditive M) {T : KdTree α d (Branch1 α d)}
    (h : KdTree.make (euclideanTag α d) M N pts n o fuel = .ok T) (hR : Representable N pts n o) (hn : 0 < n)
    (hs : StaysLine T.data.indices new T.data.root) (q : Pt α d) (hbig : ∀ i < n, M.dist q (new i) < N.big)
    (k : Nat) (hk : 0 < k) (prior : List (Neighbor α)) :
    ∃ out, (T.moved new).searchKnn q k prior = .ok out ∧ Spec.IsKnn n k (fun i => M.dist q (new i)) out := by
  have := exactAt_moved_line hM h hR hn hs q
  obtain ⟨_, rfl, rfl, _, rfl, _⟩ := KdTree.make_ok h
  exact this.knn hn hbig k hk prior

/-- C123, radius. -/
theorem c123_radius_line {M : Metric α d} (hM : EuclideanAdditive M) {T : KdTree α d (Branch1 α d)}
    (h : KdTree.make (euclideanTag α d) M N pts n o fuel = .ok T) (hR : Representable N pts n o) (hn : 0 < n)
    (hs : StaysLine T.data.indices new T.data.root) (q : Pt α d) (sorter : StdSort (Neighbor α)) (r : α)
    (prior : List (Neighbor α)) (sort : Bool) :
    Spec.IsRadius n (fun i => M.dist q (new i)) r ((T.moved new).searchRadius sorter q r prior sort) := by
  have := exactAt_moved_line hM h hR hn hs q
  obtain ⟨_, rfl, rfl, _, rfl, _⟩ := KdTree.make_ok h
  exact (this.radius sorter r prior sort).1

/-- The intervals that the branches hold for circle axes are in `[0, 1]`. -/
def CircleBranches (space : Fin d → OneSpace) : Tree (Branch2 α d) → Prop
  | .leaf _ _ => True
  | .branch b l r =>
    (space b.splitDim = .s1 → (0 ≤ b.leftMin ∧ b.leftMax ≤ 1) ∧ 0 ≤ b.rightMin ∧ b.rightMax ≤ 1) ∧
    CircleBranches space l ∧ CircleBranches space r

theorem circleBranches_created {space : Fin d → OneSpace} {C : BuildCfg α d (Branch2 α d)}
    (hC : C.setBranch = setBranchTopological) (hm : C.rule = .midpoint → MidOk C.N)
    (h01 : ∀ j, space j = .s1 → C.N.low ≤ 1 ∧ 0 ≤ C.N.big)
    {depth : Int} {o : Nat} {seg : List Nat} {box : Box α d} {t : Tree (Branch2 α d)}
    {seg' : List Nat} {box' : Box α d} (h : Created C depth o seg box t seg' box')
    (hpc : ∀ i ∈ seg, ∀ j, space j = .s1 → 0 ≤ C.pts i j ∧ C.pts i j ≤ 1)
    (hb : C.rule = .midpoint → CellOk C.N box)
    (hbc : C.rule = .midpoint → ∀ j, space j = .s1 → 0 ≤ box.min j ∧ box.max j ≤ 1) : CircleBranches space t := by
  induction h with
  | leaf hl => trivial
  | @branch depth o seg box sp l r segL segR boxL boxR hl hs hL hR ih1 ih2 =>
    have hmem := splitter_mem hs
    have hpcL := fun i hi => hpc i (hmem.1 i hi)
    have hpcR := fun i hi => hpc i (hmem.2 i hi)
    have hbL : C.rule = .midpoint → CellOk C.N (box.setMax sp.dim sp.val) :=
      fun hr => (cellOk_split (hm hr) hr hs (hb hr)).2.2.1
    have hbR : C.rule = .midpoint → CellOk C.N (box.setMin sp.dim sp.val) :=
      fun hr => (cellOk_split (hm hr) hr hs (hb hr)).2.2.2
    have hbcL : C.rule = .midpoint → ∀ j, space j = .s1 →
        0 ≤ (box.setMax sp.dim sp.val).min j ∧ (box.setMax sp.dim sp.val).max j ≤ 1 := by
      intro hr j hj
      have h1 := hbc hr j hj
      have h2 := cellOk_split (hm hr) hr hs (hb hr)
      refine ⟨h1.1, ?_⟩
      by_cases hjd : j = sp.dim
      · subst hjd; simpa [Box.setMax] using h2.2.1.trans h1.2
      · simpa [Box.setMax, Function.update, hjd] using h1.2
    have hbcR : C.rule = .midpoint → ∀ j, space j = .s1 →
        0 ≤ (box.setMin sp.dim sp.val).min j ∧ (box.setMin sp.dim sp.val).max j ≤ 1 := by
      intro hr j hj
      have h1 := hbc hr j hj
      have h2 := cellOk_split (hm hr) hr hs (hb hr)
      refine ⟨?_, h1.2⟩
      by_cases hjd : j = sp.dim
      · subst hjd; simpa [Box.setMin] using h1.1.trans h2.1
      · simpa [Box.setMin, Function.update, hjd] using h1.1
    refine ⟨?_, ih1 hpcL hbL hbcL, ih2 hpcR hbR hbcR⟩
    rw [hC]
    intro hsd
    have hsd : space sp.dim = .s1 := hsd
    refine ⟨⟨?_, ?_⟩, ?_, ?_⟩
    · exact hL.le_min hm sp.dim 0 (h01 _ hsd).2 (fun i hi => (hpcL i hi _ hsd).1)
        (fun hr => ⟨hbL hr, (hbcL hr _ hsd).1⟩)
    · exact hL.max_le hm sp.dim 1 (h01 _ hsd).1 (fun i hi => (hpcL i hi _ hsd).2)
        (fun hr => ⟨hbL hr, (hbcL hr _ hsd).2⟩)
    · exact hR.le_min hm sp.dim 0 (h01 _ hsd).2 (fun i hi => (hpcR i hi _ hsd).1)
        (fun hr => ⟨hbR hr, (hbcR hr _ hsd).1⟩)
    · exact hR.max_le hm sp.dim 1 (h01 _ hsd).1 (fun i hi => (hpcR i hi _ hsd).2)
        (fun hr => ⟨hbR hr, (hbcR hr _ hsd).2⟩)

theorem circleBranches_make {M : Metric α d} {T : KdTree α d (Branch2 α d)}
    (h : KdTree.make (topologicalTag α d) M N pts n o fuel = .ok T) (hR : Representable N pts n o) (hn : 0 < n)
    {q : Pt α d} (hc : CircleOk M.space pts n o q) : CircleBranches M.space T.data.root := by
  have h01 : ∀ j, M.space j = .s1 → N.low ≤ 1 ∧ 0 ≤ N.big := by
    intro j hj
    have h6 := hR.points 0 hn j
    have h7 := hc.points 0 hn j hj
    exact ⟨h6.1.trans h7.2, h7.1.trans h6.2⟩
  have hcell := boxFromBounds_cellOk (d := d) hn hR.points hR.bounds
  have hcb : o.rule = .midpoint → ∀ j, M.space j = .s1 →
      0 ≤ (boxFromBounds N pts n o.bounds).min j ∧ (boxFromBounds N pts n o.bounds).max j ≤ 1 := by
    intro hr j hj
    cases hbd : o.bounds with
    | fromSpace =>
      exact ⟨(foldl_fitPt_min pts _ _ j _).2 ⟨(h01 j hj).2, fun i hi =>
          (hc.points i (List.mem_range.1 hi) j hj).1⟩,
        (foldl_fitPt_max pts _ _ j _).2 ⟨(h01 j hj).1, fun i hi =>
          (hc.points i (List.mem_range.1 hi) j hj).2⟩⟩
    | given mn mx =>
      have := hc.bounds hr mn mx hbd j hj
      rw [boxFromBounds_given_min, boxFromBounds_given_max]
      exact ⟨le_min (le_min (h01 j hj).2 this.1.1) this.2.1,
        max_le (max_le (h01 j hj).1 this.1.2) this.2.2⟩
  obtain ⟨box, hcreated⟩ := created_of_make h
  exact circleBranches_created (C := KdTree.cfg (topologicalTag α d) N pts o) rfl hR.mid h01 hcreated
    (fun i hi => hc.points i (List.mem_range.1 hi)) (fun _ => hcell) hcb

theorem guard_moved_top {M : Metric α d} (hM : TopologicalAdditive M) {q : Pt α d}
    (hq : ∀ j, M.space j = .s1 → 0 ≤ q j ∧ q j ≤ 1) (indices : List Nat) :
    ∀ (t : Tree (Branch2 α d)), CircleBranches M.space t → StaysTop indices new t →
      Guard (topologicalTag α d).splitDim ((topologicalTag α d).pick M q) indices
        (fun j i => M.one (axisDistance (M.space j) (q j) (new i j))) t
  | .leaf _ _, _, _ => trivial
  | .branch b l r, ⟨hb, hl, hr⟩, ⟨s1, s2, s3, s4⟩ => by
    refine ⟨?_, guard_moved_top hM hq indices l hl s3, guard_moved_top hM hq indices r hr s4⟩
    intro i hi
    simp only [topologicalTag, pickTopological] at hi ⊢
    by_cases hc : boxDistance M b.leftMin b.leftMax (q b.splitDim) b.splitDim <
        boxDistance M b.rightMin b.rightMax (q b.splitDim) b.splitDim
    · simp only [if_pos hc, if_true] at hi ⊢
      exact boxDistance_le hM (fun hsd => ⟨(hb hsd).2.1, (hb hsd).2.2, hq _ hsd⟩) (s2 i (inLeaves_iff.2 hi))
    · simp only [if_neg hc, Bool.false_eq_true, if_false] at hi ⊢
      exact boxDistance_le hM (fun hsd => ⟨(hb hsd).1.1, (hb hsd).1.2, hq _ hsd⟩) (s1 i (inLeaves_iff.2 hi))

theorem exactAt_moved_top {M : Metric α d} (hM : TopologicalAdditive M) {T : KdTree α d (Branch2 α d)}
    (h : KdTree.make (topologicalTag α d) M N pts n o fuel = .ok T) (hR : Representable N pts n o) (hn : 0 < n)
    (hs : StaysTop T.data.indices new T.data.root) (q : Pt α d) (hc : CircleOk M.space pts n o q)
    (hnew : ∀ i < n, ∀ j, M.space j = .s1 → 0 ≤ new i j ∧ new i j ≤ 1) : ExactAt (T.moved new) q := by
  obtain ⟨hperm, _, _, hel⟩ := KdTree.make_built h hR hn
  have hcb := circleBranches_make h hR hn hc
  obtain ⟨h1, h2, h3, h4, h5, _⟩ := KdTree.make_ok h
  refine exactAt_of_guard (fun j i => M.one (axisDistance (M.space j) (q j) (new i j))) ?_ ?_ ?_ hel ?_
  · intro i hi
    simp only [KdTree.moved, h2, h5] at hi ⊢
    exact hM.dist_eq _ _ fun j hj => ⟨hc.query j hj, hnew i hi j hj⟩
  · intro i hi j
    simp only [KdTree.moved, h5] at hi
    apply hM.one_nonneg
    unfold axisDistance
    cases hsp : M.space j with
    | r1 => exact abs_nonneg _
    | s1 => exact circle_nonneg (hc.query j hsp) (hnew i hi j hsp)
  · simp only [KdTree.moved, h5]
    exact hperm
  · simp only [KdTree.moved, h1, h2]
    exact guard_moved_top hM hc.query _ _ hcb hs

/-- C123, nearest neighbor in topological spaces. -/
theorem c123_nn_top {M : Metric α d} (hM : TopologicalAdditive M) {T : KdTree α d (Branch2 α d)}
    (h : KdTree.make (topologicalTag α d) M N pts n o fuel = .ok T) (hR : Representable N pts n o) (hn : 0 < n)
    (hs : StaysTop T.data.indices new T.data.root) (q : Pt α d) (hc : CircleOk M.space pts n o q)
    (hnew : ∀ i < n, ∀ j, M.space j = .s1 → 0 ≤ new i j ∧ new i j ≤ 1) (hbig : ∀ i < n, M.dist q (new i) < N.big)
    (nn : Neighbor α) : Spec.IsNN n (fun i => M.dist q (new i)) ((T.moved new).searchNn q nn) := by
  have := exactAt_moved_top hM h hR hn hs q hc hnew
  obtain ⟨_, rfl, rfl, _, rfl, _⟩ := KdTree.make_ok h
  exact this.nn hn hbig nn

/-- C123, k nearest neighbors in topological spaces. -/
theorem c123_knn_top {M : Metric α d} (hM : TopologicalAdditive M) {T : KdTree α d (Branch2 α d)}
    (h : KdTree.make (topologicalTag α d) M N pts n o fuel = .ok T) (hR : Representable N pts n o) (hn : 0 < n)
    (hs : StaysTop T.data.indices new T.data.root) (q : Pt α d) (hc : CircleOk M.space pts n o q)
    (hnew : ∀ i < n, ∀ j, M.space j = .s1 → 0 ≤ new i j ∧ new i j ≤ 1) (hbig : ∀ i < n, M.dist q (new i) < N.big)
    (k : Nat) (hk : 0 < k) (prior : List (Neighbor α)) :
    ∃ out, (T.moved new).searchKnn q k prior = .ok out ∧ Spec.IsKnn n k (fun i => M.dist q (new i)) out := by
  have := exactAt_moved_top hM h hR hn hs q hc hnew
  obtain ⟨_, rfl, rfl, _, rfl, _⟩ := KdTree.make_ok h
  exact this.knn hn hbig k hk prior

/-- C123, radius in topological spaces. -/
theorem c123_radius_top {M : Metric α d} (hM : TopologicalAdditive M) {T : KdTree α d (Branch2 α d)}
    (h : KdTree.make (topologicalTag α d) M N pts n o fuel = .ok T) (hR : Representable N pts n o) (hn : 0 < n)
    (hs : StaysTop T.data.indices new T.data.root) (q : Pt α d) (hc : CircleOk M.space pts n o q)
    (hnew : ∀ i < n, ∀ j, M.space j = .s1 → 0 ≤ new i j ∧ new i j ≤ 1) (sorter : StdSort (Neighbor α)) (r : α)
    (prior : List (Neighbor α)) (sort : Bool) :
    Spec.IsRadius n (fun i => M.dist q (new i)) r ((T.moved new).searchRadius sorter q r prior sort) := by
  have := exactAt_moved_top hM h hR hn hs q hc hnew
  obtain ⟨_, rfl, rfl, _, rfl, _⟩ := KdTree.make_ok h
  exact (this.radius sorter r prior sort).1

end Exact

/-! ## Concrete cases -/

/-- Four points on a line. -/
def movedBefore : Nat → Pt Int 1
  | 0 => ![0]
  | 1 => ![4]
  | 2 => ![10]
  | _ => ![14]

/-- Points 1 and 2 moved towards their neighbors: each is still in the box of its leaf of two points. -/
def movedLittle : Nat → Pt Int 1
  | 0 => ![0]
  | 1 => ![1]
  | 2 => ![13]
  | _ => ![14]

/-- Point 1 went to the right end. -/
def movedFar : Nat → Pt Int 1
  | 0 => ![0]
  | 1 => ![15]
  | 2 => ![10]
  | _ => ![14]

/-- Two points per leaf. -/
def movedOpts : BuildOpts Int 1 := { Ref.optsSliding Int 1 with stop := .maxLeafSize 2 }

instance (indices : List Nat) (old new : Nat → Pt Int 1) (t : Tree (Branch1 Int 1)) :
    Decidable (StaysInLeaf indices old new t) := by
  unfold StaysInLeaf
  infer_instance

/-- Small changes: the tree finds the points of now. -/
example : ∃ T, KdTree.make (euclideanTag Int 1) (metricL1 Int 1) Ref.intNum movedBefore 4 movedOpts 10 = .ok T ∧
    StaysInLeaf T.data.indices movedBefore movedLittle T.data.root ∧
    (T.moved movedLittle).searchNn ![4] ⟨0, 0⟩ = ⟨1, 3⟩ ∧ (T.moved movedLittle).searchNn ![8] ⟨0, 0⟩ = ⟨2, 5⟩ := by
  obtain ⟨T, h, hp⟩ := Outcome.exists_of_check
    (x := KdTree.make (euclideanTag Int 1) (metricL1 Int 1) Ref.intNum movedBefore 4 movedOpts 10)
    (p := fun T => decide (StaysInLeaf T.data.indices movedBefore movedLittle T.data.root) &&
      decide ((T.moved movedLittle).searchNn ![4] ⟨0, 0⟩ = ⟨1, 3⟩) &&
      decide ((T.moved movedLittle).searchNn ![8] ⟨0, 0⟩ = ⟨2, 5⟩)) (by decide +kernel)
  simp only [Bool.and_eq_true, decide_eq_true_eq] at hp
  exact ⟨T, h, hp.1.1, hp.1.2, hp.2⟩

/-- C123 is false without the condition: point 1 is at 15 now, and a search at 15 returns point 3 at distance 1; the search
for the box around the point finds nothing, and the box `[0, 4]` reports it. -/
theorem c123_false : ∃ T, KdTree.make (euclideanTag Int 1) (metricL1 Int 1) Ref.intNum movedBefore 4 movedOpts 10 =
      .ok T ∧ (T.moved movedFar).searchNn ![15] ⟨0, 0⟩ = ⟨3, 1⟩ ∧ movedFar 1 = ![15] ∧
    (T.moved movedFar).searchBox ![15] ![15] [] = [] ∧ (T.moved movedFar).searchBox ![0] ![4] [] = [0, 1] := by
  obtain ⟨T, h, hp⟩ := Outcome.exists_of_check
    (x := KdTree.make (euclideanTag Int 1) (metricL1 Int 1) Ref.intNum movedBefore 4 movedOpts 10)
    (p := fun T => decide ((T.moved movedFar).searchNn ![15] ⟨0, 0⟩ = ⟨3, 1⟩) &&
      decide ((T.moved movedFar).searchBox ![15] ![15] [] = []) &&
      decide ((T.moved movedFar).searchBox ![0] ![4] [] = [0, 1])) (by decide +kernel)
  simp only [Bool.and_eq_true, decide_eq_true_eq] at hp
  exact ⟨T, h, hp.1.1, rfl, hp.1.2, hp.2⟩

end Pico.Props
