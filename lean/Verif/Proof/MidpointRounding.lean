import Verif.Proof.Midpoint
import Verif.Proof.RoundingError

/-! # The midpoint rule in rounded arithmetic -/

set_option linter.unusedSectionVars false

namespace Pico

open Spec

section
variable {K : Type} [Field K] [LinearOrder K] [IsStrictOrderedRing K] {R : Rounding K} {d : Nat} {β : Type}
  {C : BuildCfg R.F d β}

theorem Rounding.sub_mono {a b x y : R.F} (h1 : a ≤ x) (h2 : y ≤ b) : y - x ≤ b - a := by
  rw [R.le_iff, R.val_sub, R.val_sub]
  rw [R.le_iff] at h1 h2
  exact R.mono _ _ (by linarith)

/-- Both parts of a split side are shorter by a factor, provided that the side has at least the computed
length `G`. -/
def Shorter (N : Num R.F) (lo hi G : R.F) (r : K) : Prop :=
  ∀ a b : R.F, lo ≤ a → b ≤ hi → G ≤ b - a →
    let v := N.mulHalf (b - a) + a
    a ≤ v ∧ v ≤ b ∧ (v.1 - a.1) * r ≤ b.1 - a.1 ∧ (b.1 - v.1) * r ≤ b.1 - a.1

/-- If different coordinates differ by at least `G` and sides of at least that length get shorter, the
recursion ends. -/
theorem created_exists_shorter (hr : C.rule = .midpoint) {lo hi G : R.F} {r g : K} (hS : Shorter C.N lo hi G r)
    (hr1 : 1 < r) (hGg : ∀ a b : R.F, G ≤ b - a → g ≤ b.1 - a.1) (hlow : C.N.low < G) {m : Nat}
    (hst : C.stop = .maxLeafSize m) (hm : m < 2 ^ (C.indexBits - 1)) {n : Nat}
    (hgap : ∀ i < n, ∀ k < n, ∀ j, C.pts i j < C.pts k j → G ≤ C.pts k j - C.pts i j) (S : Nat) :
    ∀ (e : Fin d → Nat) (depth : Int) (o : Nat) (seg : List Nat) (box : Box R.F d), ∑ j, e j = S →
      (∀ j, (box.max j).1 - (box.min j).1 < g * r ^ e j) → (∀ j, lo ≤ box.min j ∧ box.max j ≤ hi) →
      (∀ i ∈ seg, i < n) → (∀ i ∈ seg, box.Mem (C.pts i)) →
      (∀ p, seg.countP (fun i => decide (C.pts i = p)) ≤ m) →
      ∃ t seg' box', Created C depth o seg box t seg' box' := by
  induction S using Nat.strong_induction_on with
  | _ S ih =>
    intro e depth o seg box hK hside hw hn hmem hcount
    by_cases hlen : seg.length ≤ m
    · refine ⟨_, _, _, .leaf ?_⟩
      simp only [isLeaf, hst, castIndex_eq hm, decide_eq_true_eq]
      exact_mod_cast hlen
    · have hl : isLeaf C depth seg.length = false := by
        simp only [isLeaf, hst, castIndex_eq hm, decide_eq_false_iff_not]
        exact_mod_cast hlen
      obtain ⟨i0, hi0⟩ : ∃ i0, i0 ∈ seg := List.exists_mem_of_length_pos (by omega)
      obtain ⟨k0, hk0, hne⟩ : ∃ k ∈ seg, C.pts k ≠ C.pts i0 := by
        by_contra hc
        push Not at hc
        have : seg.countP (fun i => decide (C.pts i = C.pts i0)) = seg.length := by
          rw [List.countP_eq_length]
          intro k hk
          simpa using hc k hk
        have := hcount (C.pts i0)
        omega
      obtain ⟨j0, hj0⟩ : ∃ j, C.pts k0 j ≠ C.pts i0 j := by
        by_contra hc
        push Not at hc
        exact hne (funext hc)
      have hbig : G ≤ box.max j0 - box.min j0 := by
        have a1 := hmem i0 hi0 j0
        have a2 := hmem k0 hk0 j0
        rcases lt_or_gt_of_ne hj0 with h | h
        · exact (hgap k0 (hn _ hk0) i0 (hn _ hi0) j0 h).trans (Rounding.sub_mono a2.1 a1.2)
        · exact (hgap i0 (hn _ hi0) k0 (hn _ hk0) j0 h).trans (Rounding.sub_mono a1.1 a2.2)
      obtain ⟨sp, hs⟩ : ∃ sp, splitter C seg box = .ok sp := by
        rcases hms : box.maxSide C.N with ⟨dim, delta⟩
        cases dim with
        | none =>
          have h1 := maxSide_none (N := C.N) (b := box) (by rw [hms]) j0
          exact absurd (hbig.trans h1) (not_le.2 hlow)
        | some dim =>
          unfold splitter
          rw [hr]
          simp only [splitMidpoint, hms]
          exact ⟨_, rfl⟩
      obtain ⟨hso, ⟨delta, hms, hv, _⟩, _⟩ := splitter_ok hs
      obtain ⟨hdelta, _, _, hlong⟩ := maxSide_some hms
      have hge : G ≤ box.max sp.dim - box.min sp.dim := by
        rw [← hdelta]; exact hbig.trans (hlong j0)
      have hval : sp.val = C.N.mulHalf (box.max sp.dim - box.min sp.dim) + box.min sp.dim := by
        rw [hv hr, hdelta]
      obtain ⟨s1, s2, s3, s4⟩ := hS _ _ (hw sp.dim).1 (hw sp.dim).2 hge
      rw [← hval] at s1 s2 s3 s4
      have hpos : e sp.dim ≠ 0 := by
        intro h0
        have := hside sp.dim
        rw [h0, pow_zero, mul_one] at this
        exact absurd this (not_lt.2 (hGg _ _ hge))
      obtain ⟨c, hc⟩ := Nat.exists_eq_succ_of_ne_zero hpos
      have hsum : ∑ j, (Function.update e sp.dim c) j < S := by
        rw [← hK]
        refine Finset.sum_lt_sum ?_ ⟨sp.dim, Finset.mem_univ _, by simp [hc]⟩
        intro j _
        by_cases hj : j = sp.dim
        · subst hj; simp [hc]
        · simp [hj]
      have hdiv : ∀ x : K, x * r ≤ (box.max sp.dim).1 - (box.min sp.dim).1 → x < g * r ^ c := by
        intro x hx
        have h1 := hside sp.dim
        rw [hc, pow_succ] at h1
        have h2 : x * r < (g * r ^ c) * r := by linarith [mul_assoc g (r ^ c) r]
        exact lt_of_mul_lt_mul_right h2 (by linarith)
      have hcountT : ∀ p, (sp.seg.take sp.pos).countP (fun i => decide (C.pts i = p)) ≤ m := fun p =>
        ((List.take_sublist _ _).countP_le).trans (by rw [hso.perm.countP_eq]; exact hcount p)
      have hcountD : ∀ p, (sp.seg.drop sp.pos).countP (fun i => decide (C.pts i = p)) ≤ m := fun p =>
        ((List.drop_sublist _ _).countP_le).trans (by rw [hso.perm.countP_eq]; exact hcount p)
      obtain ⟨l, sl, bl, hL⟩ := ih _ hsum _ (depth + 1) o (sp.seg.take sp.pos) (box.setMax sp.dim sp.val) rfl
        (fun j => by
          by_cases hj : j = sp.dim
          · subst hj; simpa [Box.setMax] using hdiv _ s3
          · simpa [Box.setMax, hj] using hside j)
        (fun j => by
          refine ⟨(hw j).1, ?_⟩
          by_cases hj : j = sp.dim
          · subst hj; simpa [Box.setMax] using s2.trans (hw sp.dim).2
          · simpa [Box.setMax, hj] using (hw j).2)
        (fun i hi => hn i ((splitter_mem hs).1 i hi))
        (fun i hi j => by
          have h1 := hmem i ((splitter_mem hs).1 i hi) j
          refine ⟨h1.1, ?_⟩
          by_cases hj : j = sp.dim
          · subst hj; simpa using hso.left_le i hi
          · rw [Box.setMax_max_ne _ _ hj]; exact h1.2) hcountT
      obtain ⟨r', sr, br, hR⟩ := ih _ hsum _ (depth + 1) (o + sp.pos) (sp.seg.drop sp.pos)
        (box.setMin sp.dim sp.val) rfl
        (fun j => by
          by_cases hj : j = sp.dim
          · subst hj; simpa [Box.setMin] using hdiv _ s4
          · simpa [Box.setMin, hj] using hside j)
        (fun j => by
          refine ⟨?_, (hw j).2⟩
          by_cases hj : j = sp.dim
          · subst hj; simpa [Box.setMin] using (hw sp.dim).1.trans s1
          · simpa [Box.setMin, hj] using (hw j).1)
        (fun i hi => hn i ((splitter_mem hs).2 i hi))
        (fun i hi j => by
          have h1 := hmem i ((splitter_mem hs).2 i hi) j
          refine ⟨?_, h1.2⟩
          by_cases hj : j = sp.dim
          · subst hj; simpa using hso.right_ge i hi
          · rw [Box.setMin_min_ne _ _ hj]; exact h1.1) hcountD
      exact ⟨_, _, _, .branch hl hs hL hR⟩

/-- Sides that are long compared to the rounding error of the coordinates get shorter. -/
theorem shorter_of_error {u : K} (hu : R.Error u) (hu0 : 0 ≤ u) (hu1 : u ≤ 1 / 16) {low big : R.F}
    {lo hi G : R.F} {B : K} (hlo : -B ≤ lo.1) (hhi : hi.1 ≤ B) (hG0 : 0 < G.1) (hGB : 16 * u * B ≤ G.1)
    (hhalf : ∀ x : R.F, G ≤ x → |R.rd (x.1 / 2) - x.1 / 2| ≤ u * (x.1 / 2)) :
    Shorter (R.num low big) lo hi G (5 / 4) := by
  intro a b ha hb hab v
  rw [R.le_iff] at ha hb
  have hab' := hab
  rw [R.le_iff, R.val_sub] at hab'
  -- the computed side
  have e1 : |R.rd (b.1 - a.1) - (b.1 - a.1)| ≤ u * |b.1 - a.1| := by
    have := hu b.1 (-a.1) b.2 (by rw [R.odd, a.2])
    simpa [sub_eq_add_neg] using this
  have hpos : 0 < b.1 - a.1 := by
    by_contra hc
    push Not at hc
    have := R.mono _ _ hc
    rw [R.rd_zero] at this
    linarith
  rw [abs_of_pos hpos] at e1
  set s := b.1 - a.1 with hs
  set s' := R.rd s with hs'
  have e2 := hhalf (b - a) hab
  rw [R.val_sub, ← hs, ← hs'] at e2
  set h := R.rd (s' / 2) with hh
  obtain ⟨e1a, e1b⟩ := abs_le.1 e1
  obtain ⟨e2a, e2b⟩ := abs_le.1 e2
  have hus : u * s ≤ s / 16 := by nlinarith
  have hus' : u * (s' / 2) ≤ s' / 32 := by nlinarith
  have hv : v.1 = R.rd (h + a.1) := rfl
  have e3 := hu h a.1 (R.idem _) a.2
  have hB : |h + a.1| ≤ B := by
    rw [abs_le]
    constructor <;> nlinarith
  have huB : u * |h + a.1| ≤ G.1 / 16 := by nlinarith
  rw [← hv] at e3
  obtain ⟨e3a, e3b⟩ := abs_le.1 (e3.trans huB)
  refine ⟨?_, ?_, ?_, ?_⟩
  · rw [R.le_iff, ← a.2, hv]
    exact R.mono _ _ (by linarith)
  · rw [R.le_iff, ← b.2, hv]
    exact R.mono _ _ (by linarith)
  · linarith
  · linarith

end

end Pico
