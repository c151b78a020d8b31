import Verif.Proof.Shape

/-!
# How deep a tree gets and how much work its construction is
-/

set_option linter.unusedSectionVars false

namespace Pico

open Spec

section
variable {β : Type}

/-- Every level of a tree visits every point at most once. -/
theorem visits_le (t : Tree β) : visits t ≤ size t * (height t + 1) := by
  induction t with
  | leaf b e => simp [visits, size, height]
  | branch data l r ih1 ih2 =>
    simp only [visits, size, height]
    have h1 : size l * (height l + 1) ≤ size l * (max (height l) (height r) + 1) :=
      Nat.mul_le_mul_left _ (by omega)
    have h2 : size r * (height r + 1) ≤ size r * (max (height l) (height r) + 1) :=
      Nat.mul_le_mul_left _ (by omega)
    have e : (size l + size r) * (max (height l) (height r) + 1 + 1) =
        size l * (max (height l) (height r) + 1) + size r * (max (height l) (height r) + 1) +
          (size l + size r) := by ring
    omega

theorem size_le_visits (t : Tree β) : size t ≤ visits t := by
  cases t with
  | leaf b e => exact le_rfl
  | branch data l r => simp only [visits, size]; omega

end

section
variable {α : Type} [LinearOrder α] [Add α] [Sub α] {d : Nat} {β : Type} {C : BuildCfg α d β}
  {depth : Int} {o : Nat} {seg seg' : List Nat} {box box' : Box α d} {t : Tree β}

/-- A sliding midpoint split either separates the points by their coordinate or takes away a single
point. -/
theorem sliding_cases (hr : C.rule = .sliding) {sp : Split α d} (h : splitter C seg box = .ok sp) :
    ((∀ i ∈ sp.seg.take sp.pos, C.pts i sp.dim < sp.val) ∧
      ∀ i ∈ sp.seg.drop sp.pos, ¬ C.pts i sp.dim < sp.val) ∨
    sp.pos = 1 ∨ sp.pos + 1 = seg.length := by
  simp only [splitter, hr] at h
  unfold splitSliding at h
  split at h
  · simp at h
  · rename_i dim delta hm
    dsimp only at h
    have hp := (C.S.partition_perm (coordBelow C.pts dim (C.N.divTwo delta + box.min dim)) seg).length_eq
    split at h
    · rename_i hk
      rw [hp] at hk
      split at h
      · simp at h
      · rename_i k' hk'
        have := (nthSplit_ok h).2.1
        exact .inr (.inr (by omega))
    · split at h
      · exact .inr (.inl (nthSplit_ok h).2.1)
      · simp only [Outcome.ok.injEq] at h
        subst h
        refine .inl ⟨fun i hi => ?_, fun i hi => ?_⟩
        · have := C.S.partition_left _ _ i hi
          simpa [coordBelow] using this
        · have := C.S.partition_right _ _ i hi
          simpa [coordBelow] using this

/-- Rules that never make an empty child: one level takes away at least one point. -/
theorem Created.height_le_sub (h : Created C depth o seg box t seg' box') (hr : C.rule ≠ .midpoint)
    {m : Nat} (hm1 : 1 ≤ m) (hst : C.stop = .maxLeafSize m) (hm : m < 2 ^ (C.indexBits - 1)) :
    height t ≤ seg.length - m := by
  induction h with
  | leaf hl => exact Nat.zero_le _
  | @branch depth o seg box sp l r segL segR boxL boxR hl hs _ _ ih1 ih2 =>
    have hst' : StopOk C := by
      unfold StopOk
      rw [hst]
      simp only [castIndex_eq hm]
      exact_mod_cast hm1
    have hp := split_pos hr hs (two_le_of_not_leaf hst' hl)
    rw [splitter_take_length hs] at ih1
    rw [splitter_drop_length hs] at ih2
    simp only [isLeaf, hst, castIndex_eq hm, decide_eq_false_iff_not] at hl
    have : ¬ seg.length ≤ m := by exact_mod_cast hl
    rw [height]
    omega

/-- Points with the coordinates of `p` among those of a node. -/
def copies (pts : Nat → Pt α d) (p : Pt α d) (seg : List Nat) : Nat :=
  seg.countP fun i => decide (∀ j, pts i j = p j)

theorem copies_le (pts : Nat → Pt α d) (p : Pt α d) (seg : List Nat) :
    copies pts p seg ≤ seg.length := List.countP_le_length

/-- A sliding midpoint split leaves all copies of a point, or all but one, on one side. -/
theorem sliding_copies (hr : C.rule = .sliding) {sp : Split α d} (p : Pt α d)
    (h : splitter C seg box = .ok sp) :
    copies C.pts p seg ≤ copies C.pts p (sp.seg.take sp.pos) + 1 ∨
      copies C.pts p seg ≤ copies C.pts p (sp.seg.drop sp.pos) + 1 := by
  have hperm := (splitter_ok h).1.perm
  have hsum : copies C.pts p seg =
      copies C.pts p (sp.seg.take sp.pos) + copies C.pts p (sp.seg.drop sp.pos) := by
    unfold copies
    rw [← List.countP_append, List.take_append_drop, hperm.countP_eq]
  have hl := splitter_take_length h
  have hd := splitter_drop_length h
  have c1 := copies_le C.pts p (sp.seg.take sp.pos)
  have c2 := copies_le C.pts p (sp.seg.drop sp.pos)
  rcases sliding_cases hr h with ⟨ha, hb⟩ | hc | hc
  · by_cases hv : p sp.dim < sp.val
    · refine .inl ?_
      have : copies C.pts p (sp.seg.drop sp.pos) = 0 := by
        refine List.countP_eq_zero.2 fun i hi hp => hb i hi ?_
        simp only [decide_eq_true_eq] at hp
        rw [hp]
        exact hv
      omega
    · refine .inr ?_
      have : copies C.pts p (sp.seg.take sp.pos) = 0 := by
        refine List.countP_eq_zero.2 fun i hi hp => hv ?_
        simp only [decide_eq_true_eq] at hp
        rw [← hp]
        exact ha i hi
      omega
  · right; omega
  · left; omega

/-- The sliding midpoint rule takes equal points apart one at a time. -/
theorem Created.copies_le_height (h : Created C depth o seg box t seg' box')
    (hr : C.rule = .sliding) {m : Nat} (hst : C.stop = .maxLeafSize m)
    (hm : m < 2 ^ (C.indexBits - 1)) (p : Pt α d) : copies C.pts p seg ≤ height t + m := by
  induction h with
  | @leaf depth o seg box hl =>
    simp only [isLeaf, hst, castIndex_eq hm, decide_eq_true_eq] at hl
    have h1 : seg.length ≤ m := by exact_mod_cast hl
    have := copies_le C.pts p seg
    omega
  | @branch depth o seg box sp l r segL segR boxL boxR hl hs _ _ ih1 ih2 =>
    rw [height]
    rcases sliding_copies hr p hs with h1 | h1 <;> omega

/-- Taking equal points apart one at a time costs quadratic work. -/
theorem Created.copies_visits (h : Created C depth o seg box t seg' box')
    (hr : C.rule = .sliding) {m : Nat} (hst : C.stop = .maxLeafSize m)
    (hm : m < 2 ^ (C.indexBits - 1)) (p : Pt α d) :
    copies C.pts p seg * (copies C.pts p seg + 1) ≤ 2 * visits t + m * (m + 1) := by
  have key : ∀ a b v : Nat, a ≤ b + 1 → b * (b + 1) ≤ 2 * v + m * (m + 1) →
      a * (a + 1) ≤ 2 * (a + v) + m * (m + 1) := by
    intro a b v hab hb
    have : a * (a + 1) ≤ b * (b + 1) + 2 * a := by
      rcases Nat.eq_zero_or_pos a with rfl | ha
      · simp
      · obtain ⟨c, rfl⟩ : ∃ c, a = c + 1 := ⟨a - 1, by omega⟩
        have hc : c ≤ b := by omega
        have := Nat.mul_le_mul hc (Nat.succ_le_succ hc)
        simp only [Nat.succ_eq_add_one] at this
        have e : (c + 1) * (c + 1 + 1) = c * (c + 1) + 2 * (c + 1) := by ring
        omega
    omega
  induction h with
  | @leaf depth o seg box hl =>
    simp only [isLeaf, hst, castIndex_eq hm, decide_eq_true_eq] at hl
    have h1 : seg.length ≤ m := by exact_mod_cast hl
    have h2 := (copies_le C.pts p seg).trans h1
    have := Nat.mul_le_mul h2 (Nat.succ_le_succ h2)
    simp only [Nat.succ_eq_add_one] at this
    omega
  | @branch depth o seg box sp l r segL segR boxL boxR hl hs h1 h2 ih1 ih2 =>
    have e1 := h1.size_eq
    have e2 := h2.size_eq
    rw [splitter_take_length hs] at e1
    rw [splitter_drop_length hs] at e2
    have hpos := (splitter_ok hs).1.pos_le
    have c := copies_le C.pts p seg
    have v1 := size_le_visits l
    have v2 := size_le_visits r
    simp only [visits]
    rcases sliding_copies hr p hs with h3 | h3
    · have := key _ _ _ h3 ih1; omega
    · have := key _ _ _ h3 ih2; omega

end

end Pico
