import Verif.Proof.Work
import Verif.Proof.Midpoint

/-!
# The height of a tree that halves its cells
-/

set_option linter.unusedSectionVars false

namespace Pico

open Spec

section
variable {α : Type} [LinearOrder α] [Add α] [Sub α] {d : Nat} {β : Type} {C : BuildCfg α d β}
  {depth : Int} {o : Nat} {seg seg' : List Nat} {box box' : Box α d} {t : Tree β}

/-- The three outcomes of the sliding midpoint rule, with the value it first tries. -/
theorem sliding_three (hr : C.rule = .sliding) {sp : Split α d} (h : splitter C seg box = .ok sp) :
    (sp.val = C.N.divTwo (box.max sp.dim - box.min sp.dim) + box.min sp.dim ∧
      ∀ i ∈ sp.seg.take sp.pos, C.pts i sp.dim < sp.val) ∨
    (sp.pos + 1 = seg.length ∧ (∃ i ∈ seg, sp.val = C.pts i sp.dim) ∧
      sp.val < C.N.divTwo (box.max sp.dim - box.min sp.dim) + box.min sp.dim) ∨
    (sp.pos = 1 ∧ C.N.divTwo (box.max sp.dim - box.min sp.dim) + box.min sp.dim ≤ sp.val) := by
  obtain ⟨_, ⟨delta', hms, _⟩, _⟩ := splitter_ok h
  obtain ⟨hdelta, _⟩ := maxSide_some hms
  simp only [splitter, hr] at h
  unfold splitSliding at h
  split at h
  · simp at h
  · rename_i dim delta hm
    rw [hms, Prod.mk.injEq, Option.some.injEq] at hm
    obtain ⟨rfl, rfl⟩ := hm
    rw [← hdelta]
    dsimp only at h
    generalize hv : C.N.divTwo delta' + box.min sp.dim = v at h ⊢
    have hp := C.S.partition_perm (coordBelow C.pts sp.dim v) seg
    have hleft := C.S.partition_left (coordBelow C.pts sp.dim v) seg
    have hright := C.S.partition_right (coordBelow C.pts sp.dim v) seg
    split at h
    · rename_i hk
      have hk2 := hk
      rw [hp.length_eq] at hk2
      split at h
      · simp at h
      · rename_i k' hk'
        obtain ⟨_, h2, _, _, ⟨i, hi, h5⟩, _⟩ := nthSplit_ok h
        refine .inr (.inl ⟨?_, ⟨i, hp.subset hi, h5⟩, ?_⟩)
        · have := hp.length_eq
          omega
        rw [h5]
        rw [hk, List.take_length] at hleft
        simpa [coordBelow] using hleft i hi
    · split at h
      · rename_i hk0
        obtain ⟨_, h2, _, _, ⟨i, hi, h5⟩, _⟩ := nthSplit_ok h
        refine .inr (.inr ⟨h2, ?_⟩)
        rw [h5]
        rw [hk0, List.drop_zero] at hright
        simpa [coordBelow] using hright i hi
      · simp only [Outcome.ok.injEq] at h
        refine .inl ⟨by rw [← h], fun i hi => ?_⟩
        rw [← h] at hi ⊢
        simpa [coordBelow] using hleft i hi

/-- A node with few enough points is a leaf. -/
theorem Created.height_zero {m : Nat} (hst : C.stop = .maxLeafSize m) (hm : m < 2 ^ (C.indexBits - 1))
    (h : Created C depth o seg box t seg' box') (hlen : seg.length ≤ m) : height t = 0 := by
  cases h with
  | leaf hl => rfl
  | branch hl hs _ _ =>
    simp only [isLeaf, hst, castIndex_eq hm, decide_eq_false_iff_not] at hl
    exact absurd (by exact_mod_cast hlen) hl

/-- The halving of the rule. -/
def halver (C : BuildCfg α d β) (x : α) : α :=
  match C.rule with
  | .midpoint => C.N.mulHalf x
  | _ => C.N.divTwo x

variable {K : Type} [Field K] [LinearOrder K] [IsStrictOrderedRing K]

/-- Both parts of a side are shorter by the factor `r` if its computed length is at least `G`; `val` is the
number a scalar stands for. -/
structure ShorterBy (val : α → K) (half : α → α) (lo hi G : α) (r g : K) : Prop where
  mono : StrictMono val
  ge : ∀ a b, lo ≤ a → a ≤ b → b ≤ hi → G ≤ b - a → a ≤ half (b - a) + a
  le : ∀ a b, lo ≤ a → a ≤ b → b ≤ hi → G ≤ b - a → half (b - a) + a ≤ b
  left : ∀ a b, lo ≤ a → a ≤ b → b ≤ hi → G ≤ b - a → (val (half (b - a) + a) - val a) * r ≤ val b - val a
  right : ∀ a b, lo ≤ a → a ≤ b → b ≤ hi → G ≤ b - a → (val b - val (half (b - a) + a)) * r ≤ val b - val a
  sub : ∀ a b x y, lo ≤ a → b ≤ hi → a ≤ x → x ≤ b → a ≤ y → y ≤ b → y - x ≤ b - a
  gap : ∀ a b, lo ≤ a → a ≤ b → b ≤ hi → G ≤ b - a → g ≤ val b - val a
  one : 1 < r

/-- Cells that get shorter at every level bound the height. -/
theorem Created.height_le_spread (hr : C.rule ≠ .median) {val : α → K} {lo hi G : α} {r g : K}
    (hS : ShorterBy val (halver C) lo hi G r g) {m : Nat} (hst : C.stop = .maxLeafSize m) (hm1 : 1 ≤ m)
    (hm : m < 2 ^ (C.indexBits - 1)) {n : Nat}
    (hsep : ∀ i < n, ∀ k < n, C.pts i ≠ C.pts k →
      ∃ j, G ≤ C.pts k j - C.pts i j ∨ G ≤ C.pts i j - C.pts k j)
    (h : Created C depth o seg box t seg' box') : ∀ e : Fin d → Nat,
      (∀ j, val (box.max j) - val (box.min j) < g * r ^ e j) → (∀ j, lo ≤ box.min j ∧ box.max j ≤ hi) →
      (∀ i ∈ seg, i < n) → (∀ i ∈ seg, box.Mem (C.pts i)) →
      (∀ p, seg.countP (fun i => decide (C.pts i = p)) ≤ m) → height t ≤ ∑ j, e j := by
  induction h with
  | leaf hl => intros; exact Nat.zero_le _
  | @branch depth o seg box sp l r' segL segR boxL boxR hl hs hcl hcr ih1 ih2 =>
    intro e hside hw hn hmem hcount
    have hl' := hl
    simp only [isLeaf, hst, castIndex_eq hm, decide_eq_false_iff_not] at hl'
    have hlen : ¬ seg.length ≤ m := by exact_mod_cast hl'
    obtain ⟨i0, hi0⟩ : ∃ i0, i0 ∈ seg := List.exists_mem_of_length_pos (by omega)
    obtain ⟨k0, hk0, hne⟩ : ∃ k ∈ seg, C.pts k ≠ C.pts i0 := by
      by_contra hc
      push Not at hc
      have : seg.countP (fun i => decide (C.pts i = C.pts i0)) = seg.length := by
        rw [List.countP_eq_length]
        intro k hk
        simpa using hc k hk
      have := hcount (C.pts i0)
      omega
    obtain ⟨j0, hj0⟩ := hsep k0 (hn _ hk0) i0 (hn _ hi0) hne
    have hbig : G ≤ box.max j0 - box.min j0 := by
      have a1 := hmem i0 hi0 j0
      have a2 := hmem k0 hk0 j0
      rcases hj0 with h | h
      · exact h.trans (hS.sub _ _ _ _ (hw j0).1 (hw j0).2 a2.1 a2.2 a1.1 a1.2)
      · exact h.trans (hS.sub _ _ _ _ (hw j0).1 (hw j0).2 a1.1 a1.2 a2.1 a2.2)
    obtain ⟨hso, ⟨delta, hms, hv, _⟩, _⟩ := splitter_ok hs
    obtain ⟨hdelta, _, _, hlong⟩ := maxSide_some hms
    have hge : G ≤ box.max sp.dim - box.min sp.dim := by
      rw [← hdelta]; exact hbig.trans (hlong j0)
    have w1 := (hw sp.dim).1
    have w2 := (hw sp.dim).2
    have w3 : box.min sp.dim ≤ box.max sp.dim := (hmem i0 hi0 sp.dim).1.trans (hmem i0 hi0 sp.dim).2
    obtain ⟨v, hvdef⟩ : ∃ v, v = halver C (box.max sp.dim - box.min sp.dim) + box.min sp.dim := ⟨_, rfl⟩
    have s1 := hS.ge _ _ w1 w3 w2 hge
    have s2 := hS.le _ _ w1 w3 w2 hge
    have s3 := hS.left _ _ w1 w3 w2 hge
    have s4 := hS.right _ _ w1 w3 w2 hge
    rw [← hvdef] at s1 s2 s3 s4
    have hr0 : 0 < r := lt_trans one_pos hS.one
    have hpos : e sp.dim ≠ 0 := by
      intro h0
      have := hside sp.dim
      rw [h0, pow_zero, mul_one] at this
      exact absurd this (not_lt.2 (hS.gap _ _ w1 w3 w2 hge))
    obtain ⟨c, hc⟩ := Nat.exists_eq_succ_of_ne_zero hpos
    have hsum : ∑ j, (Function.update e sp.dim c) j < ∑ j, e j := by
      refine Finset.sum_lt_sum ?_ ⟨sp.dim, Finset.mem_univ _, by simp [hc]⟩
      intro j _
      by_cases hj : j = sp.dim
      · subst hj; simp [hc]
      · simp [hj]
    have hdiv : ∀ x : K, x * r ≤ val (box.max sp.dim) - val (box.min sp.dim) → x < g * r ^ c := by
      intro x hx
      have h1 := hside sp.dim
      rw [hc, pow_succ] at h1
      have h2 : x * r < (g * r ^ c) * r := by linarith [mul_assoc g (r ^ c) r]
      exact lt_of_mul_lt_mul_right h2 hr0.le
    have hleft : sp.val ≤ v → height l ≤ ∑ j, (Function.update e sp.dim c) j := by
      intro hle
      refine ih1 _ (fun j => ?_) (fun j => ?_) (fun i hi => hn i ((splitter_mem hs).1 i hi))
        (fun i hi j => ?_) (fun p => ((List.take_sublist _ _).countP_le).trans
          (by rw [hso.perm.countP_eq]; exact hcount p))
      · by_cases hj : j = sp.dim
        · subst hj
          have h1 : (val sp.val - val (box.min sp.dim)) * r ≤ val (box.max sp.dim) - val (box.min sp.dim) :=
            le_trans (mul_le_mul_of_nonneg_right (sub_le_sub_right (hS.mono.monotone hle) _) hr0.le) s3
          simpa [Box.setMax] using hdiv _ h1
        · simpa [Box.setMax, hj] using hside j
      · refine ⟨(hw j).1, ?_⟩
        by_cases hj : j = sp.dim
        · subst hj; simpa [Box.setMax] using hle.trans (s2.trans w2)
        · simpa [Box.setMax, hj] using (hw j).2
      · have h1 := hmem i ((splitter_mem hs).1 i hi) j
        refine ⟨h1.1, ?_⟩
        by_cases hj : j = sp.dim
        · subst hj; simpa using hso.left_le i hi
        · rw [Box.setMax_max_ne _ _ hj]; exact h1.2
    have hright : v ≤ sp.val → height r' ≤ ∑ j, (Function.update e sp.dim c) j := by
      intro hle
      refine ih2 _ (fun j => ?_) (fun j => ?_) (fun i hi => hn i ((splitter_mem hs).2 i hi))
        (fun i hi j => ?_) (fun p => ((List.drop_sublist _ _).countP_le).trans
          (by rw [hso.perm.countP_eq]; exact hcount p))
      · by_cases hj : j = sp.dim
        · subst hj
          have h1 : (val (box.max sp.dim) - val sp.val) * r ≤ val (box.max sp.dim) - val (box.min sp.dim) :=
            le_trans (mul_le_mul_of_nonneg_right (sub_le_sub_left (hS.mono.monotone hle) _) hr0.le) s4
          simpa [Box.setMin] using hdiv _ h1
        · simpa [Box.setMin, hj] using hside j
      · refine ⟨?_, (hw j).2⟩
        by_cases hj : j = sp.dim
        · subst hj; simpa [Box.setMin] using w1.trans (s1.trans hle)
        · simpa [Box.setMin, hj] using (hw j).1
      · have h1 := hmem i ((splitter_mem hs).2 i hi) j
        refine ⟨?_, h1.2⟩
        by_cases hj : j = sp.dim
        · subst hj; simpa using hso.right_ge i hi
        · rw [Box.setMin_min_ne _ _ hj]; exact h1.1
    have both : sp.val = v ∨ (sp.val < v ∧ height r' = 0) ∨ (v ≤ sp.val ∧ height l = 0) := by
      cases hrule : C.rule with
      | median => exact absurd hrule hr
      | midpoint =>
        left
        rw [hv hrule, hdelta, hvdef, halver, hrule]
      | sliding =>
        rw [halver, hrule] at hvdef
        simp only at hvdef
        rcases sliding_three hrule hs with ⟨h1, _⟩ | ⟨h1, _, h2⟩ | ⟨h1, h2⟩
        · exact .inl (h1.trans hvdef.symm)
        · refine .inr (.inl ⟨by rw [hvdef]; exact h2, hcr.height_zero hst hm ?_⟩)
          rw [splitter_drop_length hs]; omega
        · refine .inr (.inr ⟨by rw [hvdef]; exact h2, hcl.height_zero hst hm ?_⟩)
          rw [splitter_take_length hs]; omega
    rw [height]
    rcases both with h1 | ⟨h1, h2⟩ | ⟨h1, h2⟩
    · have := hleft h1.le
      have := hright h1.ge
      omega
    · have := hleft h1.le
      omega
    · have := hright h1
      omega

/-- The sliding midpoint rule on a cell whose midpoint is rounded to its lower side: the points on that side
are taken away one at a time. -/
theorem Created.stuck_le_height (hr : C.rule = .sliding) {m : Nat} (hst : C.stop = .maxLeafSize m) (hm1 : 1 ≤ m)
    (hm : m < 2 ^ (C.indexBits - 1)) {j : Fin d} {delta : α} (h : Created C depth o seg box t seg' box') :
    box.maxSide C.N = (some j, delta) → C.N.divTwo delta + box.min j = box.min j →
    (∀ i ∈ seg, box.min j ≤ C.pts i j) →
    seg.countP (fun i => decide (C.pts i j = box.min j)) ≤ height t + m := by
  induction h with
  | @leaf depth o seg box hl =>
    intro _ _ _
    simp only [isLeaf, hst, castIndex_eq hm, decide_eq_true_eq] at hl
    have h1 : seg.length ≤ m := by exact_mod_cast hl
    have := List.countP_le_length (p := fun i => decide (C.pts i j = box.min j)) (l := seg)
    omega
  | @branch depth o seg box sp l r segL segR boxL boxR hl hs hcl hcr ih1 ih2 =>
    intro hside hstuck hge
    have hl' := hl
    simp only [isLeaf, hst, castIndex_eq hm, decide_eq_false_iff_not] at hl'
    have hlen : ¬ seg.length ≤ m := by exact_mod_cast hl'
    obtain ⟨hso, ⟨delta', hms, _⟩, _, _, hpos⟩ := splitter_ok hs
    rw [hside, Prod.mk.injEq, Option.some.injEq] at hms
    obtain ⟨hj, hd⟩ := hms
    subst hj
    obtain ⟨hdelta, _⟩ := maxSide_some hside
    have hpos := hpos hr (by omega)
    have hmemL := (splitter_mem hs).1
    have hmemR := (splitter_mem hs).2
    have hpos1 : sp.pos = 1 := by
      rcases sliding_three hr hs with ⟨h1, h2⟩ | ⟨_, ⟨i, hi, h1⟩, h2⟩ | ⟨h1, _⟩
      · exfalso
        rw [← hdelta, hstuck] at h1
        have : 0 < (sp.seg.take sp.pos).length := by rw [splitter_take_length hs]; exact hpos.1
        obtain ⟨i, hi⟩ := List.exists_mem_of_length_pos this
        have := h2 i hi
        rw [h1] at this
        exact absurd this (not_lt.2 (hge i (hmemL i hi)))
      · rw [← hdelta, hstuck, h1] at h2
        exact absurd h2 (not_lt.2 (hge i hi))
      · exact h1
    have hcount : seg.countP (fun i => decide (C.pts i sp.dim = box.min sp.dim)) =
        (sp.seg.take sp.pos).countP (fun i => decide (C.pts i sp.dim = box.min sp.dim)) +
          (sp.seg.drop sp.pos).countP (fun i => decide (C.pts i sp.dim = box.min sp.dim)) := by
      rw [← List.countP_append, List.take_append_drop, hso.perm.countP_eq]
    have hone : (sp.seg.take sp.pos).countP (fun i => decide (C.pts i sp.dim = box.min sp.dim)) ≤ 1 := by
      refine List.countP_le_length.trans ?_
      rw [splitter_take_length hs, hpos1]
    by_cases hzero : (sp.seg.drop sp.pos).countP (fun i => decide (C.pts i sp.dim = box.min sp.dim)) = 0
    · rw [height]; omega
    · obtain ⟨i, hi, hi'⟩ := List.countP_pos_iff.1 (Nat.pos_of_ne_zero hzero)
      have hval : sp.val = box.min sp.dim := by
        apply le_antisymm
        · rw [← of_decide_eq_true hi']; exact hso.right_ge i hi
        · rcases sliding_three hr hs with ⟨h1, _⟩ | ⟨_, ⟨i, hi, h1⟩, _⟩ | ⟨_, h1⟩
          · rw [← hdelta, hstuck] at h1; exact h1.ge
          · rw [h1]; exact hge i hi
          · rw [← hdelta, hstuck] at h1; exact h1
      have hbox : box.setMin sp.dim sp.val = box := by
        rw [hval]
        simp [Box.setMin]
      rw [hbox] at ih2
      have := ih2 hside hstuck (fun i hi => hge i (hmemR i hi))
      rw [height]
      omega

end

end Pico
