import Verif.Proof.Embed
import Verif.Proof.Shape
import Verif.Proof.Rounding
import Verif.Proof.Search
import Verif.Model.Float

/-!
# Arithmetic with overflow and without

The scalars `Φ.toRounding.F` have no largest number; the scalars `Fl Φ` overflow to infinity.  `sat` maps the
first to the second.  As long as the coordinates are at most half of the largest number, the construction and
the searches with overflow are the images of those without.
-/

set_option linter.unusedSectionVars false

namespace Pico

/-! ## Boxes of the tree are not inverted -/

section Tight
variable {α : Type} [LinearOrder α] {d : Nat} {β : Type}

/-- A box that is not inverted and lies between `lo` and `hi`. -/
def Box.Within (lo hi : α) (b : Box α d) : Prop := ∀ j, lo ≤ b.min j ∧ b.min j ≤ b.max j ∧ b.max j ≤ hi

/-- Like `Built`, and the boxes of all nodes are `Within lo hi`. -/
inductive Tight (pts : Nat → Pt α d) (setBranch : Box α d → Box α d → Fin d → β) (lo hi : α) :
    Nat → Tree β → List Nat → Box α d → Prop where
  | leaf {o : Nat} {seg : List Nat} {box : Box α d} (h : ∀ i ∈ seg, box.Mem (pts i)) (hw : box.Within lo hi) :
      Tight pts setBranch lo hi o (.leaf o (o + seg.length)) seg box
  | branch {o : Nat} {l r : Tree β} {segL segR : List Nat} {boxL boxR : Box α d} {dim : Fin d}
      (hl : Tight pts setBranch lo hi o l segL boxL) (hr : Tight pts setBranch lo hi (o + segL.length) r segR boxR)
      (hlr : boxL.max dim ≤ boxR.min dim) :
      Tight pts setBranch lo hi o (.branch (setBranch boxL boxR dim) l r) (segL ++ segR)
        (boxL.fitBox boxR)

theorem Tight.built {pts : Nat → Pt α d} {sb : Box α d → Box α d → Fin d → β} {lo hi : α} {o : Nat}
    {t : Tree β} {seg : List Nat} {box : Box α d} (h : Tight pts sb lo hi o t seg box) :
    Built pts sb o t seg box := by
  induction h with
  | leaf h _ => exact .leaf h
  | branch _ _ hlr ih1 ih2 => exact .branch ih1 ih2 hlr

theorem Tight.within {pts : Nat → Pt α d} {sb : Box α d → Box α d → Fin d → β} {lo hi : α} {o : Nat}
    {t : Tree β} {seg : List Nat} {box : Box α d} (h : Tight pts sb lo hi o t seg box) :
    box.Within lo hi := by
  induction h with
  | leaf _ h => exact h
  | branch _ _ _ ih1 ih2 =>
    intro j
    obtain ⟨a1, a2, a3⟩ := ih1 j
    obtain ⟨b1, b2, b3⟩ := ih2 j
    rw [Box.fitBox_min, Box.fitBox_max]
    exact ⟨le_min a1 b1, (min_le_left _ _).trans (a2.trans (le_max_left _ _)), max_le a3 b3⟩

variable [Add α] [Sub α] {C : BuildCfg α d β}

/-- A finished construction with points and start box between `lo` and `hi`. -/
theorem Created.tight (hm : C.rule = .midpoint → MidOk C.N) (hst : StopOk C) {lo hi : α}
    (hlo : C.N.low ≤ lo) (hhi : hi ≤ C.N.big) (hlh : lo ≤ hi) {depth : Int}
    {o : Nat} {seg : List Nat} {box : Box α d} {t : Tree β} {seg' : List Nat} {box' : Box α d}
    (h : Created C depth o seg box t seg' box')
    (hp : ∀ i ∈ seg, ∀ j, lo ≤ C.pts i j ∧ C.pts i j ≤ hi)
    (hb : C.rule = .midpoint → box.Within lo hi) (hne : C.rule ≠ .midpoint → 0 < seg.length) :
    Tight C.pts C.setBranch lo hi o t seg' box' := by
  have hN : C.N.low ≤ C.N.big := hlo.trans (hlh.trans hhi)
  have hcell : ∀ b : Box α d, b.Within lo hi → CellOk C.N b := fun b hw j =>
    ⟨(hw j).2.1, ⟨hlo.trans (hw j).1, (hw j).2.1.trans ((hw j).2.2.trans hhi)⟩,
      ⟨hlo.trans ((hw j).1.trans (hw j).2.1), (hw j).2.2.trans hhi⟩⟩
  induction h with
  | @leaf depth o seg box hl =>
    refine .leaf leafBox_mem fun j => ⟨?_, ?_, ?_⟩
    · exact leafBox_le_min (hlh.trans hhi) (fun i hi => (hp i hi j).1) fun hr => (hb hr j).1
    · by_cases h0 : 0 < seg.length
      · obtain ⟨i, hi⟩ := List.exists_mem_of_length_pos h0
        have := leafBox_mem (C := C) (box := box) i hi j
        exact this.1.trans this.2
      · have hr : C.rule = .midpoint := by
          by_contra hr
          exact h0 (hne hr)
        unfold leafBox
        rw [hr]
        dsimp only
        rw [if_neg h0]
        exact (hb hr j).2.1
    · exact leafBox_max_le (hlo.trans hlh) (fun i hi => (hp i hi j).2) fun hr => (hb hr j).2.2
  | @branch depth o seg box sp l r segL segR boxL boxR hl hs hL hR ih1 ih2 =>
    have hmem := splitter_mem hs
    have hso := (splitter_ok hs).1
    have hw : C.rule = .midpoint → (box.setMax sp.dim sp.val).Within lo hi ∧
        (box.setMin sp.dim sp.val).Within lo hi := by
      intro hr
      have hc := cellOk_split (hm hr) hr hs (hcell _ (hb hr))
      have hbd := hb hr sp.dim
      constructor
      · intro j
        by_cases hj : j = sp.dim
        · subst hj; simpa [hbd.1] using ⟨hc.1, hc.2.1.trans hbd.2.2⟩
        · rw [Box.setMax_max_ne _ _ hj]; exact hb hr j
      · intro j
        by_cases hj : j = sp.dim
        · subst hj; simpa [hbd.2.2] using ⟨hbd.1.trans hc.1, hc.2.1⟩
        · rw [Box.setMin_min_ne _ _ hj]; exact hb hr j
    have hlen : segL.length = sp.pos := by rw [hL.perm.length_eq]; exact splitter_take_length hs
    have b1 := ih1 (fun i hi => hp i (hmem.1 i hi)) (fun hr => (hw hr).1)
      (fun hr => by rw [splitter_take_length hs]; exact (split_pos hr hs (two_le_of_not_leaf hst hl)).1)
    have b2 := ih2 (fun i hi => hp i (hmem.2 i hi)) (fun hr => (hw hr).2)
      (fun hr => by
        rw [splitter_drop_length hs]
        have := (split_pos hr hs (two_le_of_not_leaf hst hl)).2
        omega)
    have hpr : ∀ i ∈ seg, ∀ j, InRange C.N (C.pts i j) := fun i hi j =>
      ⟨hlo.trans (hp i hi j).1, (hp i hi j).2.trans hhi⟩
    rw [← hlen] at b2
    refine .branch b1 b2 ?_
    by_cases hr : C.rule = .midpoint
    · have hc := cellOk_split (hm hr) hr hs (hcell _ (hb hr))
      have hlo' : C.N.low ≤ sp.val := (hcell _ (hb hr) sp.dim).2.1.1.trans hc.1
      have hhi' : sp.val ≤ C.N.big := hc.2.1.trans (hcell _ (hb hr) sp.dim).2.2.2
      exact (hL.max_le hm sp.dim sp.val hlo' hso.left_le fun _ => ⟨hc.2.2.1, by simp⟩).trans
        (hR.le_min hm sp.dim sp.val hhi' hso.right_ge fun _ => ⟨hc.2.2.2, by simp⟩)
    · refine hL.max_le hm sp.dim _ ?_ ?_ (fun h => absurd h hr)
      · exact hR.le_min hm sp.dim _ hN (fun i hi => (hpr i (hmem.2 i hi) _).1) (fun h => absurd h hr)
      · intro i hi
        refine hR.le_min hm sp.dim _ (hpr i (hmem.1 i hi) _).2 ?_ (fun h => absurd h hr)
        intro k hk
        exact (hso.left_le i hi).trans (hso.right_ge k hk)

end Tight

/-! ## The map -/

section Sat
variable {K : Type} [Field K] [LinearOrder K] [IsStrictOrderedRing K] {Φ : FloatFormat K}

/-- The number, or an infinity if it is too large. -/
def sat (Φ : FloatFormat K) (a : Φ.toRounding.F) : Fl Φ := Fl.ofK Φ a.1

/-- Numbers that do not overflow. -/
def IsFin (a : Φ.toRounding.F) : Prop := -Φ.big ≤ a.1 ∧ a.1 ≤ Φ.big

theorem ofK_rd (x : K) : Fl.ofK Φ (Φ.rd x) = Fl.ofK Φ x := by
  unfold Fl.ofK
  simp only [Φ.idem]

theorem sat_fin {a : Φ.toRounding.F} (h : IsFin a) : sat Φ a = .fin a.1 ⟨a.2, h.1, h.2⟩ := by
  have e : Φ.rd a.1 = a.1 := a.2
  unfold sat Fl.ofK
  rw [dif_neg (by rw [e]; exact not_lt.2 h.2), dif_neg (by rw [e]; exact not_lt.2 h.1)]
  simp only [e]

theorem sat_inf {a : Φ.toRounding.F} (h : Φ.big < a.1) : sat Φ a = .inf false := by
  have e : Φ.rd a.1 = a.1 := a.2
  unfold sat Fl.ofK
  rw [dif_pos (by rw [e]; exact h)]

theorem sat_neg_inf {a : Φ.toRounding.F} (h : a.1 < -Φ.big) : sat Φ a = .inf true := by
  have e : Φ.rd a.1 = a.1 := a.2
  have := Φ.big_pos
  unfold sat Fl.ofK
  rw [dif_neg (by rw [e]; exact not_lt.2 (by linarith)), dif_pos (by rw [e]; exact h)]

theorem sat_cases (a : Φ.toRounding.F) : IsFin a ∨ Φ.big < a.1 ∨ a.1 < -Φ.big := by
  unfold IsFin
  rcases lt_or_ge Φ.big a.1 with h | h
  · exact .inr (.inl h)
  · rcases lt_or_ge a.1 (-Φ.big) with h' | h'
    · exact .inr (.inr h')
    · exact .inl ⟨h', h⟩

theorem isFin_zero : IsFin (0 : Φ.toRounding.F) := by
  have := Φ.big_pos
  exact ⟨by show -Φ.big ≤ 0; linarith, this.le⟩

theorem sat_zero : sat Φ 0 = 0 := by rw [sat_fin isFin_zero]; rfl

theorem rd_le_big {x : K} (h : x ≤ Φ.big) : Φ.rd x ≤ Φ.big := (Φ.mono _ _ h).trans Φ.big_rd.le

theorem big_le_rd {x : K} (h : -Φ.big ≤ x) : -Φ.big ≤ Φ.rd x := by
  have := Φ.mono _ _ h
  rwa [Φ.odd, Φ.big_rd] at this

theorem rd_nonneg' {x : K} (h : 0 ≤ x) : 0 ≤ Φ.rd x := by
  have := Φ.mono _ _ h
  rwa [Φ.rd_zero] at this

theorem fin_lt_fin {x y : K} {hx hy} : ((Fl.fin x hx : Fl Φ) < .fin y hy) ↔ x < y :=
  decide_eq_true_iff (p := x < y)

theorem fin_le_fin {x y : K} {hx hy} : ((Fl.fin x hx : Fl Φ) ≤ .fin y hy) ↔ x ≤ y :=
  decide_eq_true_iff (p := x ≤ y)

/-- Comparisons with a number that does not overflow are exact. -/
theorem sat_lt_fin {a m : Φ.toRounding.F} (hm : IsFin m) : sat Φ a < sat Φ m ↔ a < m := by
  rw [sat_fin hm]
  have hb := Φ.big_pos
  rcases sat_cases a with h | h | h
  · rw [sat_fin h]; exact fin_lt_fin
  · rw [sat_inf h]
    refine ⟨fun h' => ?_, fun h' => ?_⟩
    · exact absurd (show false = true from h') (by simp)
    · exact absurd (show a.1 < m.1 from h') (not_lt.2 (hm.2.trans h.le))
  · rw [sat_neg_inf h]
    exact ⟨fun _ => show a.1 < m.1 from h.trans_le hm.1, fun _ => rfl⟩

theorem fin_lt_sat {a m : Φ.toRounding.F} (hm : IsFin m) : sat Φ m < sat Φ a ↔ m < a := by
  rw [sat_fin hm]
  have hb := Φ.big_pos
  rcases sat_cases a with h | h | h
  · rw [sat_fin h]; exact fin_lt_fin
  · rw [sat_inf h]
    exact ⟨fun _ => show m.1 < a.1 from hm.2.trans_lt h, fun _ => rfl⟩
  · rw [sat_neg_inf h]
    refine ⟨fun h' => ?_, fun h' => ?_⟩
    · exact absurd (show false = true from h') (by simp)
    · exact absurd (show m.1 < a.1 from h') (not_lt.2 (h.le.trans hm.1))

theorem sat_le_fin {a m : Φ.toRounding.F} (hm : IsFin m) : sat Φ a ≤ sat Φ m ↔ a ≤ m := by
  rw [sat_fin hm]
  have hb := Φ.big_pos
  rcases sat_cases a with h | h | h
  · rw [sat_fin h]; exact fin_le_fin
  · rw [sat_inf h]
    refine ⟨fun h' => ?_, fun h' => ?_⟩
    · exact absurd (show false = true from h') (by simp)
    · exact absurd (show a.1 ≤ m.1 from h') (not_le.2 (hm.2.trans_lt h))
  · rw [sat_neg_inf h]
    exact ⟨fun _ => show a.1 ≤ m.1 from h.le.trans hm.1, fun _ => rfl⟩

theorem sat_add {a b : Φ.toRounding.F} (ha : IsFin a) (hb : IsFin b) : sat Φ a + sat Φ b = sat Φ (a + b) := by
  rw [sat_fin ha, sat_fin hb]
  exact (ofK_rd (a.1 + b.1)).symm

theorem sat_sub {a b : Φ.toRounding.F} (ha : IsFin a) (hb : IsFin b) : sat Φ a - sat Φ b = sat Φ (a - b) := by
  rw [sat_fin ha, sat_fin hb]
  show Fl.ofK Φ (a.1 + -b.1) = Fl.ofK Φ (Φ.rd (a.1 - b.1))
  rw [ofK_rd, sub_eq_add_neg]

/-- Sums of numbers that are not negative. -/
theorem sat_add_nonneg {a b : Φ.toRounding.F} (ha : 0 ≤ a) (hb : 0 ≤ b) :
    sat Φ a + sat Φ b = sat Φ (a + b) := by
  have hbig := Φ.big_pos
  have ha' : (0 : K) ≤ a.1 := ha
  have hb' : (0 : K) ≤ b.1 := hb
  have hval : (a + b).1 = Φ.rd (a.1 + b.1) := rfl
  have ea : Φ.rd a.1 = a.1 := a.2
  have eb : Φ.rd b.1 = b.1 := b.2
  have m1 : a.1 ≤ (a + b).1 := by
    rw [hval, ← ea]; exact Φ.mono _ _ (by rw [ea]; linarith)
  have m2 : b.1 ≤ (a + b).1 := by
    rw [hval, ← eb]; exact Φ.mono _ _ (by rw [eb]; linarith)
  rcases sat_cases a with h | h | h
  · rcases sat_cases b with h' | h' | h'
    · exact sat_add h h'
    · rw [sat_inf h', sat_inf (h'.trans_le m2), sat_fin h]
      rfl
    · linarith
  · rw [sat_inf h, sat_inf (h.trans_le m1)]
    rcases sat_cases b with h' | h' | h'
    · rw [sat_fin h']; rfl
    · rw [sat_inf h']; rfl
    · linarith
  · linarith

theorem sat_neg (a : Φ.toRounding.F) : -sat Φ a = sat Φ (-a) := by
  have hv : (-a).1 = -a.1 := rfl
  rcases sat_cases a with h | h | h
  · have h' : IsFin (-a) := ⟨by rw [hv]; linarith [h.2], by rw [hv]; linarith [h.1]⟩
    rw [sat_fin h, sat_fin h']
    rfl
  · rw [sat_inf h, sat_neg_inf (by rw [hv]; linarith)]
    rfl
  · rw [sat_neg_inf h, sat_inf (by rw [hv]; linarith)]
    rfl

theorem sat_abs (a : Φ.toRounding.F) : sabs (sat Φ a) = sat Φ (sabs a) := by
  unfold sabs
  have : sat Φ a < 0 ↔ a < 0 := by rw [← sat_zero]; exact sat_lt_fin isFin_zero
  by_cases h : a < 0
  · rw [if_pos (this.2 h), if_pos h, sat_neg]
  · rw [if_neg (mt this.1 h), if_neg h]

/-- Squares. -/
theorem sat_sq (h1 : 1 ≤ Φ.big) (a : Φ.toRounding.F) : squared (sat Φ a) = sat Φ (squared a) := by
  have hbig := Φ.big_pos
  unfold squared
  have hv : (a * a).1 = Φ.rd (a.1 * a.1) := rfl
  have ea : Φ.rd a.1 = a.1 := a.2
  rcases sat_cases a with h | h | h
  · rw [sat_fin h]
    exact (ofK_rd (a.1 * a.1)).symm
  · have : Φ.big < (a * a).1 := by
      refine h.trans_le ?_
      rw [hv]
      conv_lhs => rw [← ea]
      exact Φ.mono _ _ (by nlinarith)
    rw [sat_inf h, sat_inf this]
    rfl
  · have : Φ.big < (a * a).1 := by
      have e' : Φ.rd (-a.1) = -a.1 := by rw [Φ.odd, ea]
      have : Φ.big < -a.1 := by linarith
      refine this.trans_le ?_
      rw [hv]
      conv_lhs => rw [← e']
      exact Φ.mono _ _ (by nlinarith)
    rw [sat_neg_inf h, sat_inf this]
    rfl

/-- Numbers bounded by `B`. -/
def IsSmall (B : K) (a : Φ.toRounding.F) : Prop := -B ≤ a.1 ∧ a.1 ≤ B

theorem IsSmall.fin {B : K} (hB : 2 * B ≤ Φ.big) {a : Φ.toRounding.F} (h : IsSmall B a) : IsFin a := by
  have : 0 ≤ B := by linarith [h.1, h.2]
  exact ⟨by linarith [h.1], by linarith [h.2]⟩

theorem IsSmall.add {B : K} (hB : 2 * B ≤ Φ.big) {a b : Φ.toRounding.F} (ha : IsSmall B a) (hb : IsSmall B b) :
    IsFin (a + b) :=
  ⟨big_le_rd (by linarith [ha.1, hb.1]), rd_le_big (by linarith [ha.2, hb.2])⟩

theorem IsSmall.sub {B : K} (hB : 2 * B ≤ Φ.big) {a b : Φ.toRounding.F} (ha : IsSmall B a) (hb : IsSmall B b) :
    IsFin (a - b) :=
  ⟨big_le_rd (by linarith [ha.1, hb.2]), rd_le_big (by linarith [ha.2, hb.1])⟩

theorem isFin_half {x : Φ.toRounding.F} (h : IsFin x) : IsFin (Φ.toRounding.ofK (x.1 / 2)) := by
  have := Φ.big_pos
  exact ⟨big_le_rd (by linarith [h.1]), rd_le_big (by linarith [h.2])⟩

theorem half_sat {x : Φ.toRounding.F} (h : IsFin x) : Fl.half (sat Φ x) = sat Φ (Φ.toRounding.ofK (x.1 / 2)) := by
  rw [sat_fin h]
  exact (ofK_rd (x.1 / 2)).symm

/-- `numeric_limits` of the numbers without overflow. -/
def satNum (Φ : FloatFormat K) : Num Φ.toRounding.F :=
  Φ.toRounding.num ⟨-Φ.big, by rw [Φ.odd, Φ.big_rd]⟩ ⟨Φ.big, Φ.big_rd⟩

theorem isFin_low : IsFin (satNum Φ).low := ⟨le_rfl, by have := Φ.big_pos; show -Φ.big ≤ Φ.big; linarith⟩
theorem isFin_big : IsFin (satNum Φ).big := ⟨by have := Φ.big_pos; show -Φ.big ≤ Φ.big; linarith, le_rfl⟩
theorem sat_low : sat Φ (satNum Φ).low = (Fl.num Φ).low := by rw [sat_fin isFin_low]; rfl
theorem sat_big : sat Φ (satNum Φ).big = (Fl.num Φ).big := by rw [sat_fin isFin_big]; rfl

/-- The construction on numbers up to half of the largest one is the same with and without overflow. -/
theorem sat_embeds (rule : Rule) {B : K} (hB : 2 * B ≤ Φ.big) :
    Embeds rule (satNum Φ) (Fl.num Φ) (sat Φ) IsFin (IsSmall B) := by
  have hmid : ∀ x y : Φ.toRounding.F, IsSmall B x → IsSmall B y →
      IsSmall B (Φ.toRounding.ofK ((y - x).1 / 2) + x) := by
    intro x y hx hy
    obtain ⟨h1, h2⟩ := Φ.toRounding.mid x y
    constructor
    · refine le_trans ?_ (show _ ≤ (Φ.toRounding.ofK ((y - x).1 / 2) + x).1 from h1)
      rcases min_choice x y with e | e <;> rw [e]
      exacts [hx.1, hy.1]
    · refine le_trans (show (Φ.toRounding.ofK ((y - x).1 / 2) + x).1 ≤ _ from h2) ?_
      rcases max_choice x y with e | e <;> rw [e]
      exacts [hx.2, hy.2]
  have heq : ∀ x y : Φ.toRounding.F, IsSmall B x → IsSmall B y →
      Fl.half (sat Φ y - sat Φ x) + sat Φ x = sat Φ (Φ.toRounding.ofK ((y - x).1 / 2) + x) := by
    intro x y hx hy
    rw [sat_sub (hy.fin hB) (hx.fin hB), half_sat (hy.sub hB hx), sat_add (isFin_half (hy.sub hB hx)) (hx.fin hB)]
  constructor
  · exact fun x hx => hx.fin hB
  · exact fun x y hx hy => sat_lt_fin hy
  · exact isFin_low
  · exact sat_low
  · exact isFin_big
  · exact sat_big
  · intro x y hx hy
    rw [sat_sub (hx.fin hB) (hy.fin hB), ← sat_low]
    exact sat_lt_fin (hx.sub hB hy)
  · intro x y z w hx hy hz hw _
    rw [sat_sub (hx.fin hB) (hy.fin hB), sat_sub (hz.fin hB) (hw.fin hB)]
    exact sat_lt_fin (hz.sub hB hw)
  · exact fun _ x y hx hy _ => ⟨hmid x y hx hy, heq x y hx hy⟩
  · intro _ x y z hx hy hz _
    show sat Φ z < Fl.half (sat Φ y - sat Φ x) + sat Φ x ↔ z < Φ.toRounding.ofK ((y - x).1 / 2) + x
    rw [heq x y hx hy]
    exact sat_lt_fin ((hmid x y hx hy).fin hB)
  · exact fun _ x y z w hx hy _ _ _ _ _ => ⟨hmid x y hx hy, heq x y hx hy⟩

/-! ## The search -/

/-- A branch with its coordinates mapped. -/
def satBranch (Φ : FloatFormat K) {d : Nat} (b : Branch1 Φ.toRounding.F d) : Branch1 (Fl Φ) d :=
  ⟨b.splitDim, sat Φ b.leftMax, sat Φ b.rightMin⟩

/-- The same metric on both kinds of numbers. -/
structure SatMetric {d : Nat} (M : Metric Φ.toRounding.F d) (M' : Metric (Fl Φ) d) : Prop where
  axis : AxisMetric M
  one : ∀ x, M'.one (sat Φ x) = sat Φ (M.one x)
  dist : ∀ q p, (∀ j, IsFin (q j)) → (∀ j, IsFin (p j)) →
    M'.dist (fun j => sat Φ (q j)) (fun j => sat Φ (p j)) = sat Φ (M.dist q p)

theorem foldl_add_ge {d : Nat} (op : Fin d → Φ.toRounding.F) (h0 : ∀ j, 0 ≤ op j) (l : List (Fin d))
    (acc : Φ.toRounding.F) (hacc : 0 ≤ acc) :
    acc ≤ l.foldl (fun acc i => acc + op i) acc ∧ ∀ j ∈ l, op j ≤ l.foldl (fun acc i => acc + op i) acc := by
  have step : ∀ a b : Φ.toRounding.F, 0 ≤ a → 0 ≤ b → a ≤ a + b ∧ b ≤ a + b := by
    intro a b ha hb
    have ha' : (0 : K) ≤ a.1 := ha
    have hb' : (0 : K) ≤ b.1 := hb
    have ea : Φ.rd a.1 = a.1 := a.2
    have eb : Φ.rd b.1 = b.1 := b.2
    refine ⟨show a.1 ≤ Φ.rd (a.1 + b.1) from ?_, show b.1 ≤ Φ.rd (a.1 + b.1) from ?_⟩
    · conv_lhs => rw [← ea]
      exact Φ.mono _ _ (by linarith)
    · conv_lhs => rw [← eb]
      exact Φ.mono _ _ (by linarith)
  induction l generalizing acc with
  | nil => exact ⟨le_rfl, by simp⟩
  | cons a l ih =>
    obtain ⟨s1, s2⟩ := step acc (op a) hacc (h0 a)
    obtain ⟨i1, i2⟩ := ih (acc + op a) (hacc.trans s1)
    refine ⟨s1.trans i1, fun j hj => ?_⟩
    rcases List.mem_cons.1 hj with rfl | hj
    · exact s2.trans i1
    · exact i2 j hj

theorem AxisMetric.one_le {d : Nat} {M : Metric Φ.toRounding.F d} (hM : AxisMetric M)
    (q p : Pt Φ.toRounding.F d) (j : Fin d) : M.one (q j - p j) ≤ M.dist q p := by
  rw [hM.dist_eq]
  exact (foldl_add_ge (fun j => M.one (q j - p j)) (fun _ => hM.nonneg _) _ 0 le_rfl).2 j (List.mem_finRange j)

theorem AxisMetric.dist_nonneg {d : Nat} {M : Metric Φ.toRounding.F d} (hM : AxisMetric M)
    (q p : Pt Φ.toRounding.F d) : 0 ≤ M.dist q p := by
  rw [hM.dist_eq]
  exact (foldl_add_ge (fun j => M.one (q j - p j)) (fun _ => hM.nonneg _) _ 0 le_rfl).1

theorem sat_foldl {d : Nat} (op : Fin d → Φ.toRounding.F) (h0 : ∀ j, 0 ≤ op j) (l : List (Fin d))
    (acc : Φ.toRounding.F) (hacc : 0 ≤ acc) :
    l.foldl (fun acc i => acc + sat Φ (op i)) (sat Φ acc) = sat Φ (l.foldl (fun acc i => acc + op i) acc) := by
  induction l generalizing acc with
  | nil => rfl
  | cons a l ih =>
    rw [List.foldl_cons, List.foldl_cons, sat_add_nonneg hacc (h0 a)]
    exact ih _ (hacc.trans (foldl_add_ge op h0 [a] acc hacc).1)

theorem satMetric_l1 (d : Nat) : SatMetric (metricL1 Φ.toRounding.F d) (metricL1 (Fl Φ) d) where
  axis := axis_l1 Φ.toRounding.laws
  one x := sat_abs x
  dist q p hq hp := by
    simp only [metricL1, loopSum, r1Distance, sat_sub (hq _) (hp _), sat_abs]
    conv_lhs => rw [← sat_zero]
    exact sat_foldl _ (fun j => (axis_l1 (d := d) Φ.toRounding.laws).nonneg _) _ 0 le_rfl

theorem satMetric_l2Sq (h1 : 1 ≤ Φ.big) (d : Nat) :
    SatMetric (metricL2Sq Φ.toRounding.F d) (metricL2Sq (Fl Φ) d) where
  axis := axis_l2Sq Φ.toRounding.laws Φ.toRounding.squareLaws
  one x := sat_sq h1 x
  dist q p hq hp := by
    simp only [metricL2Sq, loopSum, squaredR1Distance, sat_sub (hq _) (hp _), sat_sq h1]
    conv_lhs => rw [← sat_zero]
    exact sat_foldl _
      (fun j => (axis_l2Sq (d := d) Φ.toRounding.laws Φ.toRounding.squareLaws).nonneg _) _ 0 le_rfl

/-- The choice of the first child is the same. -/
theorem sat_pick {d : Nat} {M : Metric Φ.toRounding.F d} {M' : Metric (Fl Φ) d} (hM : SatMetric M M') {B : K}
    (hB : 2 * B ≤ Φ.big) {q : Pt Φ.toRounding.F d} (hq : ∀ j, IsFin (q j)) {b : Branch1 Φ.toRounding.F d}
    (hl : IsSmall B b.leftMax) (hr : IsSmall B b.rightMin) :
    pickEuclidean M' (fun j => sat Φ (q j)) (satBranch Φ b) =
      ((pickEuclidean M q b).1, sat Φ (pickEuclidean M q b).2) := by
  have hbig := Φ.big_pos
  unfold pickEuclidean satBranch
  dsimp only
  generalize hv : q b.splitDim = v
  have fv : IsFin v := by rw [← hv]; exact hq _
  have key : sat Φ b.leftMax + sat Φ b.rightMin - sat Φ v - sat Φ v > 0 ↔
      b.leftMax + b.rightMin - v - v > 0 := by
    rw [sat_add (hl.fin hB) (hr.fin hB), sat_sub (hl.add hB hr) fv]
    have fa := hl.add hB hr
    generalize b.leftMax + b.rightMin = a at fa
    have hval : (a - v).1 = Φ.rd (a.1 - v.1) := rfl
    have hval2 : (a - v - v).1 = Φ.rd ((a - v).1 - v.1) := rfl
    rcases sat_cases (a - v) with h | h | h
    · rw [sat_sub h fv, ← sat_zero]
      exact fin_lt_sat isFin_zero
    · rw [sat_inf h, sat_fin fv]
      refine ⟨fun _ => show (0 : K) < (a - v - v).1 from ?_, fun _ => rfl⟩
      have h1 : Φ.big < a.1 - v.1 := by
        by_contra hc
        rw [hval] at h
        exact absurd (rd_le_big (not_lt.1 hc)) (not_le.2 h)
      have h2 : v.1 < 0 := by linarith [fa.2]
      rw [hval2]
      refine lt_of_lt_of_le hbig ?_
      rw [← Φ.big_rd]
      exact Φ.mono _ _ (by linarith)
    · rw [sat_neg_inf h, sat_fin fv]
      refine ⟨fun h' => absurd (show false = true from h') (by simp),
        fun h' => absurd (show (0 : K) < (a - v - v).1 from h') (not_lt.2 ?_)⟩
      have h1 : a.1 - v.1 < -Φ.big := by
        by_contra hc
        rw [hval] at h
        exact absurd (big_le_rd (not_lt.1 hc)) (not_le.2 h)
      have h2 : 0 < v.1 := by linarith [fa.1]
      rw [hval2]
      refine (Φ.mono _ 0 (by linarith)).trans Φ.rd_zero.le
  by_cases hc : b.leftMax + b.rightMin - v - v > 0
  · rw [if_pos hc, if_pos (key.2 hc), sat_sub (hr.fin hB) fv, hM.one]
  · rw [if_neg hc, if_neg (mt key.1 hc), sat_sub (hl.fin hB) fv, hM.one]

/-- The same visitor on both kinds of numbers; `g` maps the state. -/
structure SatVisitor {σ σ' : Type} (V : Visitor Φ.toRounding.F σ) (V' : Visitor (Fl Φ) σ') (g : σ → σ')
    (Inv : σ → Prop) : Prop where
  max_fin : ∀ s, Inv s → IsFin (V.max s)
  max : ∀ s, Inv s → V'.max (g s) = sat Φ (V.max s)
  visit : ∀ s i x, Inv s → 0 ≤ x → V'.visit (g s) i (sat Φ x) = g (V.visit s i x)
  inv : ∀ s i x, Inv s → 0 ≤ x → Inv (V.visit s i x)
  ignore : ∀ s i x, Inv s → V.max s ≤ x → V.visit s i x = s

section
variable {σ σ' : Type} {V : Visitor Φ.toRounding.F σ} {V' : Visitor (Fl Φ) σ'} {g : σ → σ'} {Inv : σ → Prop}
  (hV : SatVisitor V V' g Inv)
include hV

theorem SatVisitor.visitAll {dist : Nat → Φ.toRounding.F} {dist' : Nat → Fl Φ} (hd : ∀ i, dist' i = sat Φ (dist i))
    (h0 : ∀ i, 0 ≤ dist i) (l : List Nat) (s : σ) (hs : Inv s) :
    visitAll V' dist' l (g s) = g (visitAll V dist l s) ∧ Inv (visitAll V dist l s) := by
  induction l generalizing s with
  | nil => exact ⟨rfl, hs⟩
  | cons a l ih =>
    have := ih _ (hV.inv s a _ hs (h0 a))
    unfold Pico.visitAll at this ⊢
    rw [List.foldl_cons, List.foldl_cons, hd, hV.visit s a _ hs (h0 a)]
    exact this

theorem SatVisitor.visitAll_ignore {dist : Nat → Φ.toRounding.F} (l : List Nat) (s : σ) (hs : Inv s)
    (h : ∀ i ∈ l, V.max s ≤ dist i) : Pico.visitAll V dist l s = s := by
  induction l with
  | nil => rfl
  | cons a l ih =>
    unfold Pico.visitAll at ih ⊢
    rw [List.foldl_cons, hV.ignore s a _ hs (h a (by simp))]
    exact ih fun i hi => h i (by simp [hi])

/-- The traversal with overflow is the image of the traversal without. -/
theorem sat_searchNearest {d : Nat} {M : Metric Φ.toRounding.F d} {M' : Metric (Fl Φ) d} (hM : SatMetric M M')
    {lo hi : Φ.toRounding.F} {B : K} (hB : 2 * B ≤ Φ.big) (hlo : -B ≤ lo.1) (hhi : hi.1 ≤ B)
    {pts : Nat → Pt Φ.toRounding.F d} {q : Pt Φ.toRounding.F d} (hq : ∀ j, IsFin (q j)) {dist' : Nat → Fl Φ}
    (hd : ∀ i, dist' i = sat Φ (M.dist q (pts i))) {o : Nat} {t : Tree (Branch1 Φ.toRounding.F d)}
    {seg : List Nat} {box : Box Φ.toRounding.F d} (hT : Tight pts setBranchEuclidean lo hi o t seg box) :
    ∀ (pre post : List Nat), o = pre.length → ∀ (D : Φ.toRounding.F) (off : Pt Φ.toRounding.F d) (s : σ), Inv s →
      0 ≤ D → IsFin D → (∀ j, 0 ≤ off j ∧ IsFin (off j)) →
      (∀ j x, box.min j ≤ x → x ≤ box.max j → off j ≤ M.one (x - q j)) →
      searchNearest (euclideanTag (Fl Φ) d).splitDim (pickEuclidean M' fun j => sat Φ (q j)) V' dist'
          (pre ++ (seg ++ post)) (t.map (satBranch Φ)) (sat Φ D) (fun j => sat Φ (off j), g s) =
        (fun j => sat Φ (off j),
          g (searchNearest (euclideanTag Φ.toRounding.F d).splitDim (pickEuclidean M q) V
            (fun i => M.dist q (pts i)) (pre ++ (seg ++ post)) t D (off, s)).2) ∧
      Inv (searchNearest (euclideanTag Φ.toRounding.F d).splitDim (pickEuclidean M q) V
            (fun i => M.dist q (pts i)) (pre ++ (seg ++ post)) t D (off, s)).2 := by
  have hbig := Φ.big_pos
  have L := Φ.toRounding.laws
  induction hT with
  | leaf hmem hw =>
    intro pre post ho D off s hs _ _ _ _
    obtain ⟨h1, h2⟩ := hV.visitAll hd (fun i => hM.axis.dist_nonneg q (pts i))
      (slice (pre ++ (_ ++ post)) _ _) s hs
    exact ⟨Prod.ext rfl h1, h2⟩
  | @branch o l r segL segR boxL boxR dim hl hr hlr ih1 ih2 =>
    intro pre post ho D off s hs hD0 hDf hoff hface
    have wl := hl.within
    have wr := hr.within
    have iL := ih1 pre (segR ++ post) ho
    have iR := ih2 (pre ++ segL) post (by simp [ho])
    have hel := hl.built.elems_eq pre (segR ++ post) ho
    have her := hr.built.elems_eq (pre ++ segL) post (by simp [ho])
    simp only [List.append_assoc] at iL iR hel her ⊢
    set idx := pre ++ (segL ++ (segR ++ post)) with hidx
    have sl : IsSmall B (boxL.max dim) :=
      ⟨hlo.trans (show lo.1 ≤ _ from (wl dim).1.trans (wl dim).2.1), (show (boxL.max dim).1 ≤ _ from (wl dim).2.2).trans hhi⟩
    have sr : IsSmall B (boxR.min dim) :=
      ⟨hlo.trans (show lo.1 ≤ _ from (wr dim).1), (show (boxR.min dim).1 ≤ _ from (wr dim).2.1.trans (wr dim).2.2).trans hhi⟩
    have hpk := sat_pick hM hB hq (b := setBranchEuclidean boxL boxR dim) sl sr
    -- one side first, then the other
    have key : ∀ (t1 t2 : Tree (Branch1 Φ.toRounding.F d)) (box1 box2 : Box Φ.toRounding.F d) (new : Φ.toRounding.F),
        (∀ (D : Φ.toRounding.F) (off : Pt Φ.toRounding.F d) (s : σ), Inv s →
          0 ≤ D → IsFin D → (∀ j, 0 ≤ off j ∧ IsFin (off j)) →
          (∀ j x, box1.min j ≤ x → x ≤ box1.max j → off j ≤ M.one (x - q j)) →
          searchNearest (euclideanTag (Fl Φ) d).splitDim (pickEuclidean M' fun j => sat Φ (q j)) V' dist'
              idx (t1.map (satBranch Φ)) (sat Φ D) (fun j => sat Φ (off j), g s) =
            (fun j => sat Φ (off j),
              g (searchNearest (euclideanTag Φ.toRounding.F d).splitDim (pickEuclidean M q) V
                (fun i => M.dist q (pts i)) idx t1 D (off, s)).2) ∧
          Inv (searchNearest (euclideanTag Φ.toRounding.F d).splitDim (pickEuclidean M q) V
                (fun i => M.dist q (pts i)) idx t1 D (off, s)).2) →
        (∀ (D : Φ.toRounding.F) (off : Pt Φ.toRounding.F d) (s : σ), Inv s →
          0 ≤ D → IsFin D → (∀ j, 0 ≤ off j ∧ IsFin (off j)) →
          (∀ j x, box2.min j ≤ x → x ≤ box2.max j → off j ≤ M.one (x - q j)) →
          searchNearest (euclideanTag (Fl Φ) d).splitDim (pickEuclidean M' fun j => sat Φ (q j)) V' dist'
              idx (t2.map (satBranch Φ)) (sat Φ D) (fun j => sat Φ (off j), g s) =
            (fun j => sat Φ (off j),
              g (searchNearest (euclideanTag Φ.toRounding.F d).splitDim (pickEuclidean M q) V
                (fun i => M.dist q (pts i)) idx t2 D (off, s)).2) ∧
          Inv (searchNearest (euclideanTag Φ.toRounding.F d).splitDim (pickEuclidean M q) V
                (fun i => M.dist q (pts i)) idx t2 D (off, s)).2) →
        (∀ j x, box1.min j ≤ x → x ≤ box1.max j → off j ≤ M.one (x - q j)) →
        (∀ j x, box2.min j ≤ x → x ≤ box2.max j → off j ≤ M.one (x - q j)) →
        0 ≤ new → off dim ≤ new → (∀ x, box2.min dim ≤ x → x ≤ box2.max dim → new ≤ M.one (x - q dim)) →
        (∀ i ∈ t2.elems idx, box2.min dim ≤ pts i dim ∧ pts i dim ≤ box2.max dim) →
        (let st1 := searchNearest (euclideanTag (Fl Φ) d).splitDim (pickEuclidean M' fun j => sat Φ (q j)) V' dist'
              idx (t1.map (satBranch Φ)) (sat Φ D) (fun j => sat Φ (off j), g s)
         if V'.max st1.2 ≥ sat Φ D - st1.1 dim + sat Φ new then
            let st2 := searchNearest (euclideanTag (Fl Φ) d).splitDim (pickEuclidean M' fun j => sat Φ (q j)) V' dist'
              idx (t2.map (satBranch Φ)) (sat Φ D - st1.1 dim + sat Φ new)
                (Function.update st1.1 dim (sat Φ new), st1.2)
            (Function.update st2.1 dim (st1.1 dim), st2.2)
         else st1) =
         (fun j => sat Φ (off j), g (
          let st1 := searchNearest (euclideanTag Φ.toRounding.F d).splitDim (pickEuclidean M q) V
                (fun i => M.dist q (pts i)) idx t1 D (off, s)
          if V.max st1.2 ≥ D - st1.1 dim + new then
            let st2 := searchNearest (euclideanTag Φ.toRounding.F d).splitDim (pickEuclidean M q) V
                (fun i => M.dist q (pts i)) idx t2 (D - st1.1 dim + new) (Function.update st1.1 dim new, st1.2)
            (Function.update st2.1 dim (st1.1 dim), st2.2)
          else st1).2) ∧
         Inv (let st1 := searchNearest (euclideanTag Φ.toRounding.F d).splitDim (pickEuclidean M q) V
                (fun i => M.dist q (pts i)) idx t1 D (off, s)
          if V.max st1.2 ≥ D - st1.1 dim + new then
            let st2 := searchNearest (euclideanTag Φ.toRounding.F d).splitDim (pickEuclidean M q) V
                (fun i => M.dist q (pts i)) idx t2 (D - st1.1 dim + new) (Function.update st1.1 dim new, st1.2)
            (Function.update st2.1 dim (st1.1 dim), st2.2)
          else st1).2 := by
      intro t1 t2 box1 box2 new j1 j2 f1 f2 hn0 hold hnew hmem
      obtain ⟨r1, r2⟩ := j1 D off s hs hD0 hDf hoff f1
      dsimp only
      rw [r1]
      have e1 : (searchNearest (euclideanTag Φ.toRounding.F d).splitDim (pickEuclidean M q) V
          (fun i => M.dist q (pts i)) idx t1 D (off, s)).1 = off := by
        obtain ⟨vis, skip, _, he⟩ := searchNearest_struct (euclideanTag Φ.toRounding.F d).splitDim
          (pickEuclidean M q) V (fun i => M.dist q (pts i)) idx t1 D (off, s)
        rw [he]
      generalize hst : searchNearest (euclideanTag Φ.toRounding.F d).splitDim (pickEuclidean M q) V
          (fun i => M.dist q (pts i)) idx t1 D (off, s) = st1 at e1 r2
      obtain ⟨off1, s1⟩ := st1
      dsimp only at e1 r2 ⊢
      subst e1
      have hmf := hV.max_fin s1 r2
      have hmx := hV.max s1 r2
      have oD : (0 : K) ≤ D.1 := hD0
      have oo : (0 : K) ≤ (off1 dim).1 := (hoff dim).1
      have vsub : (D - off1 dim).1 = Φ.rd (D.1 - (off1 dim).1) := rfl
      have vadd : (D - off1 dim + new).1 = Φ.rd ((D - off1 dim).1 + new.1) := rfl
      have hsubf : IsFin (D - off1 dim) :=
        ⟨big_le_rd (by linarith [(hoff dim).2.2]), rd_le_big (by linarith [hDf.2])⟩
      rw [sat_sub hDf (hoff dim).2, hmx]
      rcases sat_cases new with hnf | hnf | hnf
      · rw [sat_add hsubf hnf]
        have hiff : sat Φ (V.max s1) ≥ sat Φ (D - off1 dim + new) ↔ V.max s1 ≥ D - off1 dim + new :=
          sat_le_fin hmf
        by_cases hc : V.max s1 ≥ D - off1 dim + new
        · rw [if_pos (hiff.2 hc), if_pos hc]
          have hD'0 : 0 ≤ D - off1 dim + new := by
            show (0 : K) ≤ (D - off1 dim + new).1
            rw [vadd]
            refine rd_nonneg' ?_
            have : -(off1 dim).1 ≤ (D - off1 dim).1 := by
              rw [vsub]
              have e : Φ.rd (-(off1 dim).1) = -(off1 dim).1 := by
                rw [Φ.odd]; congr 1; exact (off1 dim).2
              rw [← e]
              exact Φ.mono _ _ (by linarith)
            have : (off1 dim).1 ≤ new.1 := hold
            linarith
          have hD'f : IsFin (D - off1 dim + new) :=
            ⟨le_trans (by linarith) (show (0 : K) ≤ (D - off1 dim + new).1 from hD'0),
              le_trans (show (D - off1 dim + new).1 ≤ (V.max s1).1 from hc) hmf.2⟩
          have hupd : Function.update (fun j => sat Φ (off1 j)) dim (sat Φ new) =
              fun j => sat Φ (Function.update off1 dim new j) := by
            funext j
            by_cases hj : j = dim
            · subst hj; simp
            · simp [Function.update_of_ne hj]
          obtain ⟨r3, r4⟩ := j2 (D - off1 dim + new) (Function.update off1 dim new) s1 r2 hD'0 hD'f
            (by
              intro j
              by_cases hj : j = dim
              · subst hj; simpa using ⟨hn0, hnf⟩
              · simpa [Function.update_of_ne hj] using hoff j)
            (by
              intro j
              by_cases hj : j = dim
              · subst hj; simpa using hnew
              · simpa [Function.update_of_ne hj] using f2 j)
          rw [hupd, r3]
          refine ⟨Prod.ext ?_ rfl, r4⟩
          funext j
          by_cases hj : j = dim
          · subst hj; simp
          · simp [Function.update_of_ne hj]
        · rw [if_neg (mt hiff.1 hc), if_neg hc]
          exact ⟨rfl, r2⟩
      · have hinf : sat Φ (D - off1 dim) + sat Φ new = .inf false := by
          rw [sat_fin hsubf, sat_inf hnf]; rfl
        rw [hinf]
        have hno : ¬ sat Φ (V.max s1) ≥ (.inf false : Fl Φ) := by
          rw [sat_fin hmf]
          exact fun h => absurd (show false = true from h) (by simp)
        rw [if_neg hno]
        by_cases hc : V.max s1 ≥ D - off1 dim + new
        · rw [if_pos hc]
          obtain ⟨vis, skip, hperm, he⟩ := searchNearest_struct (euclideanTag Φ.toRounding.F d).splitDim
            (pickEuclidean M q) V (fun i => M.dist q (pts i)) idx t2 (D - off1 dim + new)
            (Function.update off1 dim new, s1)
          rw [he]
          dsimp only
          have hig : Pico.visitAll V (fun i => M.dist q (pts i)) vis s1 = s1 := by
            refine hV.visitAll_ignore vis s1 r2 fun i hi => ?_
            obtain ⟨m1, m2⟩ := hmem i (hperm.subset (by simp [hi]))
            have h1 := hnew _ m1 m2
            rw [hM.axis.symm] at h1
            refine le_trans ?_ (h1.trans (hM.axis.one_le q (pts i) dim))
            exact show (V.max s1).1 ≤ new.1 from hmf.2.trans hnf.le
          rw [hig]
          exact ⟨rfl, r2⟩
        · rw [if_neg hc]
          exact ⟨rfl, r2⟩
      · exact absurd (show (0 : K) ≤ new.1 from hn0) (not_le.2 (by linarith))
    have fL : ∀ j x, boxL.min j ≤ x → x ≤ boxL.max j → off j ≤ M.one (x - q j) := fun j x h1 h2 =>
      hface j x (by rw [Box.fitBox_min]; exact (min_le_left _ _).trans h1)
        (by rw [Box.fitBox_max]; exact h2.trans (le_max_left _ _))
    have fR : ∀ j x, boxR.min j ≤ x → x ≤ boxR.max j → off j ≤ M.one (x - q j) := fun j x h1 h2 =>
      hface j x (by rw [Box.fitBox_min]; exact (min_le_right _ _).trans h1)
        (by rw [Box.fitBox_max]; exact h2.trans (le_max_right _ _))
    simp only [Tree.map, searchNearest]
    have hsd : (euclideanTag (Fl Φ) d).splitDim (satBranch Φ (setBranchEuclidean boxL boxR dim)) = dim := rfl
    have hsd' : (euclideanTag Φ.toRounding.F d).splitDim (setBranchEuclidean boxL boxR dim) = dim := rfl
    rw [hpk, hsd, hsd']
    have hpe : pickEuclidean M q (setBranchEuclidean boxL boxR dim) =
        if boxL.max dim + boxR.min dim - q dim - q dim > 0 then (true, M.one (boxR.min dim - q dim))
        else (false, M.one (boxL.max dim - q dim)) := rfl
    by_cases hc : boxL.max dim + boxR.min dim - q dim - q dim > 0
    · rw [hpe, if_pos hc]
      dsimp only
      simp only [if_true]
      -- the query is left of the right box
      have hq' : q dim ≤ boxR.min dim := by
        by_contra hcon
        have h1 : boxR.min dim < q dim := not_le.1 hcon
        have h2 := L.add_mono _ _ _ _ (hlr.trans h1.le) h1.le
        have h3 := L.sub_mono _ _ _ _ (L.sub_mono _ _ (q dim) (q dim) h2 le_rfl) (le_refl (q dim))
        rw [L.double, L.sub_self] at h3
        exact absurd hc (not_lt.2 h3)
      exact key l r boxL boxR _ iL iR fL fR (hM.axis.nonneg _) (fR dim _ le_rfl (wr dim).2.1)
        (fun x h1 _ => hM.axis.mono _ _ (by
          have := L.sub_mono _ _ _ _ hq' (le_refl (q dim)); rwa [L.sub_self] at this)
          (L.sub_mono _ _ _ _ h1 le_rfl))
        (fun i hi => hr.built.mem i (by rw [← her]; exact hi) dim)
    · rw [hpe, if_neg hc]
      dsimp only
      simp only [Bool.false_eq_true, if_false]
      have hq' : boxL.max dim ≤ q dim := by
        by_contra hcon
        have h1 : q dim < boxL.max dim := not_le.1 hcon
        have h1' : q dim < boxR.min dim := h1.trans_le hlr
        refine hc ?_
        -- the sum is at least twice the smaller one
        have hdbl : boxL.max dim + boxL.max dim ≤ boxL.max dim + boxR.min dim := L.add_mono _ _ _ _ le_rfl hlr
        have h2 := L.sub_mono _ _ _ _ hdbl h1.le
        rw [L.double] at h2
        have h3 := L.sub_mono _ _ _ _ h2 (le_refl (q dim))
        exact (L.sub_pos _ _ h1).trans_le h3
      exact key r l boxR boxL _ iR iL fR fL (hM.axis.nonneg _) (fL dim _ (wl dim).2.1 le_rfl)
        (fun x _ h2 => by
          rw [hM.axis.symm, hM.axis.symm x]
          exact hM.axis.mono _ _ (by
            have := L.sub_mono _ _ _ _ hq' (le_refl (boxL.max dim)); rwa [L.sub_self] at this)
            (L.sub_mono _ _ _ _ le_rfl h2))
        (fun i hi => hl.built.mem i (by rw [← hel]; exact hi) dim)

end

end Sat

end Pico
