import Verif.Proof.Embed
import Verif.Proof.Shape
import Verif.Model.Float

/-!
# Floating point numbers without NaN are linearly ordered

`Ext Φ` are the numbers of the format with the infinities and without NaN.  The construction with the median
or sliding midpoint rule and the box searches only compare scalars; what they compute on `Fl Φ` from
coordinates without NaN is what they compute on `Ext Φ`.  (A side length or a split value can be NaN, from
infinite coordinates; every comparison with it is false.  On `Ext Φ` minus infinity takes its place.)
-/

set_option linter.unusedSectionVars false

namespace Pico

section Axis
variable {α : Type} [LinearOrder α] [Add α] [Sub α] {d : Nat} {β : Type} {C : BuildCfg α d β}

theorem maxSide_isSome_of {N : Num α} {box : Box α d} {j : Fin d} (h : N.low < box.max j - box.min j) :
    ∃ dim delta, box.maxSide N = (some dim, delta) := by
  rcases hm : box.maxSide N with ⟨_ | dim, delta⟩
  · exact absurd h (not_lt.2 (maxSide_none (by rw [hm]) j))
  · exact ⟨dim, delta, rfl⟩

theorem splitter_isOk_of {seg : List Nat} {box : Box α d} {j : Fin d} (h : C.N.low < box.max j - box.min j)
    (h2 : 2 ≤ seg.length) : ∃ sp, splitter C seg box = .ok sp := by
  obtain ⟨dim, delta, hm⟩ := maxSide_isSome_of h
  unfold splitter
  cases C.rule with
  | median =>
    simp only [splitMedian, hm]
    exact nthSplit_of_lt _ _ _ (by omega)
  | midpoint =>
    simp only [splitMidpoint, hm]
    exact ⟨_, rfl⟩
  | sliding =>
    simp only [splitSliding, hm]
    have hp := C.S.partition_perm (coordBelow C.pts dim (C.N.divTwo delta + box.min dim)) seg
    rw [hp.length_eq]
    split_ifs with h3 h4
    · split
      · omega
      · exact nthSplit_of_lt _ _ _ (by rw [hp.length_eq]; omega)
    · exact nthSplit_of_lt _ _ _ (by rw [hp.length_eq]; omega)
    · exact ⟨_, rfl⟩

/-- The construction finishes if on one axis the differences of ordered coordinates stay above `lowest()`. -/
theorem created_exists_axis {lo hi : α} (j : Fin d)
    (hsafe : ∀ y x, lo ≤ y → y ≤ x → x ≤ hi → C.N.low < x - y) (hr : C.rule ≠ .midpoint) (hst : StopOk C)
    (len : Nat) : ∀ (depth : Int) (o : Nat) (seg : List Nat) (box : Box α d), seg.length ≤ len →
      (lo ≤ box.min j ∧ box.min j ≤ box.max j ∧ box.max j ≤ hi) →
      (∀ i ∈ seg, box.min j ≤ C.pts i j ∧ C.pts i j ≤ box.max j) →
      ∃ t seg' box', Created C depth o seg box t seg' box' := by
  induction len with
  | zero =>
    intro depth o seg box hlen hw hp
    cases hl : isLeaf C depth seg.length with
    | true => exact ⟨_, _, _, .leaf hl⟩
    | false => have := two_le_of_not_leaf hst hl; omega
  | succ len ih =>
    intro depth o seg box hlen hw hp
    cases hl : isLeaf C depth seg.length with
    | true => exact ⟨_, _, _, .leaf hl⟩
    | false =>
      have h2 := two_le_of_not_leaf hst hl
      obtain ⟨sp, hs⟩ := splitter_isOk_of (hsafe _ _ hw.1 hw.2.1 hw.2.2) h2 (seg := seg) (box := box)
      have hpos := split_pos hr hs h2
      have hmem := splitter_mem hs
      have hok := (splitter_ok hs).1
      have hlt := splitter_take_length hs
      have hld := splitter_drop_length hs
      obtain ⟨z, hz⟩ : ∃ z, z ∈ sp.seg.take sp.pos := List.exists_mem_of_length_pos (by omega)
      obtain ⟨w, hw'⟩ : ∃ w, w ∈ sp.seg.drop sp.pos := List.exists_mem_of_length_pos (by omega)
      have hz1 := hok.left_le z hz
      have hw1 := hok.right_ge w hw'
      have hz2 := hp z (hmem.1 z hz)
      have hw2 := hp w (hmem.2 w hw')
      obtain ⟨l, sl, bl, hL⟩ := ih (depth + 1) o (sp.seg.take sp.pos) (box.setMax sp.dim sp.val)
        (by omega) (by
          by_cases hj : j = sp.dim
          · subst hj
            simp only [Box.setMax, Function.update_self]
            exact ⟨hw.1, hz2.1.trans hz1, (hw1.trans hw2.2).trans hw.2.2⟩
          · simp only [Box.setMax, Function.update_of_ne hj]
            exact hw) (by
          intro i hi
          have hi2 := hp i (hmem.1 i hi)
          by_cases hj : j = sp.dim
          · subst hj
            simp only [Box.setMax, Function.update_self]
            exact ⟨hi2.1, hok.left_le i hi⟩
          · simp only [Box.setMax, Function.update_of_ne hj]
            exact hi2)
      obtain ⟨r, sr, br, hR⟩ := ih (depth + 1) (o + sp.pos) (sp.seg.drop sp.pos) (box.setMin sp.dim sp.val)
        (by omega) (by
          by_cases hj : j = sp.dim
          · subst hj
            simp only [Box.setMin, Function.update_self]
            exact ⟨hw.1.trans (hz2.1.trans hz1), hw1.trans hw2.2, hw.2.2⟩
          · simp only [Box.setMin, Function.update_of_ne hj]
            exact hw) (by
          intro i hi
          have hi2 := hp i (hmem.2 i hi)
          by_cases hj : j = sp.dim
          · subst hj
            simp only [Box.setMin, Function.update_self]
            exact ⟨hok.right_ge i hi, hi2.2⟩
          · simp only [Box.setMin, Function.update_of_ne hj]
            exact hi2)
      exact ⟨_, _, _, .branch hl hs hL hR⟩

end Axis

section
variable {K : Type} [Field K] [LinearOrder K] [IsStrictOrderedRing K] {Φ : FloatFormat K}

/-- The numbers of the format except NaN. -/
@[ext]
structure Ext (Φ : FloatFormat K) where
  val : Fl Φ
  ne : val ≠ .nan

namespace Ext

instance : LT (Ext Φ) := ⟨fun a b => a.1 < b.1⟩
instance : LE (Ext Φ) := ⟨fun a b => a.1 ≤ b.1⟩

theorem lt_def (a b : Ext Φ) : a < b ↔ a.1 < b.1 := Iff.rfl
theorem le_def (a b : Ext Φ) : a ≤ b ↔ a.1 ≤ b.1 := Iff.rfl

theorem fl_lt_iff {a b : Fl Φ} : a < b ↔ Fl.blt a b = true := Iff.rfl
theorem fl_le_iff {a b : Fl Φ} : a ≤ b ↔ Fl.ble a b = true := Iff.rfl

instance : LinearOrder (Ext Φ) where
  le_refl a := by
    obtain ⟨_ | s | ⟨x, h⟩, ha⟩ := a
    · exact absurd rfl ha
    · cases s <;> rfl
    · simp [le_def, fl_le_iff, Fl.ble]
  le_trans a b c := by
    obtain ⟨_ | s | ⟨x, h⟩, ha⟩ := a
    · exact absurd rfl ha
    all_goals obtain ⟨_ | t | ⟨y, h'⟩, hb⟩ := b
    · exact absurd rfl hb
    on_goal 3 => exact absurd rfl hb
    all_goals obtain ⟨_ | u | ⟨z, h''⟩, hc⟩ := c
    all_goals first
      | exact absurd rfl hc
      | (simp only [le_def, fl_le_iff, Fl.ble, decide_eq_true_eq]; exact le_trans)
      | (cases s <;> cases t <;> cases u <;> simp [le_def, fl_le_iff, Fl.ble])
      | (cases s <;> cases t <;> simp [le_def, fl_le_iff, Fl.ble])
      | (cases t <;> cases u <;> simp [le_def, fl_le_iff, Fl.ble])
      | (cases s <;> cases u <;> simp [le_def, fl_le_iff, Fl.ble])
      | (cases s <;> simp [le_def, fl_le_iff, Fl.ble])
      | (cases t <;> simp [le_def, fl_le_iff, Fl.ble])
      | (cases u <;> simp [le_def, fl_le_iff, Fl.ble])
  le_antisymm a b := by
    obtain ⟨_ | s | ⟨x, h⟩, ha⟩ := a
    · exact absurd rfl ha
    all_goals obtain ⟨_ | t | ⟨y, h'⟩, hb⟩ := b
    · exact absurd rfl hb
    on_goal 3 => exact absurd rfl hb
    · cases s <;> cases t <;> simp [le_def, fl_le_iff, Fl.ble]
    · cases s <;> simp [le_def, fl_le_iff, Fl.ble]
    · cases t <;> simp [le_def, fl_le_iff, Fl.ble]
    · simp only [le_def, fl_le_iff, Fl.ble, decide_eq_true_eq]
      intro h1 h2
      have := le_antisymm h1 h2
      subst this
      rfl
  le_total a b := by
    obtain ⟨_ | s | ⟨x, h⟩, ha⟩ := a
    · exact absurd rfl ha
    all_goals obtain ⟨_ | t | ⟨y, h'⟩, hb⟩ := b
    · exact absurd rfl hb
    on_goal 3 => exact absurd rfl hb
    · cases s <;> cases t <;> simp [le_def, fl_le_iff, Fl.ble]
    · cases s <;> simp [le_def, fl_le_iff, Fl.ble]
    · cases t <;> simp [le_def, fl_le_iff, Fl.ble]
    · simp only [le_def, fl_le_iff, Fl.ble, decide_eq_true_eq]
      exact le_total x y
  lt_iff_le_not_ge a b := by
    obtain ⟨_ | s | ⟨x, h⟩, ha⟩ := a
    · exact absurd rfl ha
    all_goals obtain ⟨_ | t | ⟨y, h'⟩, hb⟩ := b
    · exact absurd rfl hb
    on_goal 3 => exact absurd rfl hb
    · cases s <;> cases t <;> simp [le_def, lt_def, fl_le_iff, fl_lt_iff, Fl.ble, Fl.blt]
    · cases s <;> simp [le_def, lt_def, fl_le_iff, fl_lt_iff, Fl.ble, Fl.blt]
    · cases t <;> simp [le_def, lt_def, fl_le_iff, fl_lt_iff, Fl.ble, Fl.blt]
    · simp only [le_def, lt_def, fl_le_iff, fl_lt_iff, Fl.ble, Fl.blt, decide_eq_true_eq]
      exact lt_iff_le_not_ge
  toDecidableLE a b := inferInstanceAs (Decidable (a.1 ≤ b.1))
  toDecidableLT a b := inferInstanceAs (Decidable (a.1 < b.1))

/-- NaN becomes minus infinity. -/
def ofFl (x : Fl Φ) : Ext Φ := if h : x = .nan then ⟨.inf true, by simp⟩ else ⟨x, h⟩

theorem ofFl_val {x : Fl Φ} (h : x ≠ .nan) : (ofFl x).1 = x := by
  unfold ofFl
  rw [dif_neg h]

theorem ofFl_coe (x : Ext Φ) : ofFl x.1 = x := Ext.ext (ofFl_val x.2)

instance : Add (Ext Φ) := ⟨fun a b => ofFl (a.1 + b.1)⟩
instance : Sub (Ext Φ) := ⟨fun a b => ofFl (a.1 - b.1)⟩
instance : Neg (Ext Φ) := ⟨fun a => ofFl (-a.1)⟩
instance : Zero (Ext Φ) := ⟨ofFl 0⟩
instance : One (Ext Φ) := ⟨ofFl 1⟩

def num (Φ : FloatFormat K) : Num (Ext Φ) where
  low := ofFl (Fl.num Φ).low
  big := ofFl (Fl.num Φ).big
  mulHalf x := ofFl ((Fl.num Φ).mulHalf x.1)
  divTwo x := ofFl ((Fl.num Φ).divTwo x.1)

/-- A number that is not NaN is below `x` iff it is below `ofFl x`: nothing is below NaN, and nothing is
below minus infinity. -/
theorem lt_ofFl (z : Ext Φ) (x : Fl Φ) : z < ofFl x ↔ z.1 < x := by
  by_cases h : x = .nan
  · subst h
    obtain ⟨_ | s | ⟨y, h'⟩, hz⟩ := z
    · exact absurd rfl hz
    · simp [ofFl, lt_def, fl_lt_iff, Fl.blt]
    · simp [ofFl, lt_def, fl_lt_iff, Fl.blt]
  · rw [lt_def, ofFl_val h]

/-- Halving keeps NaN. -/
theorem half_ofFl (x y : Fl Φ) (h : x ≠ .nan) : (Fl.half x + y : Fl Φ) = Fl.half (ofFl x).1 + y := by
  rw [ofFl_val h]

theorem low_ne : (Fl.num Φ).low ≠ .nan := by simp [Fl.num]
theorem big_ne : (Fl.num Φ).big ≠ .nan := by simp [Fl.num]

theorem half_ne {x : Fl Φ} (h : x ≠ .nan) : Fl.half x ≠ .nan := by
  cases x with
  | nan => exact absurd rfl h
  | inf s => simp [Fl.half]
  | fin x hx =>
    simp only [Fl.half, Fl.ofK]
    split_ifs <;> simp

theorem not_lt_nan' (x : Fl Φ) : ¬ x < (Fl.nan : Fl Φ) := by
  rw [fl_lt_iff]
  cases x <;> simp [Fl.blt]

/-- The construction with the median and the sliding midpoint rule. -/
theorem embeds (rule : Rule) (hr : rule ≠ .midpoint) :
    Embeds rule (num Φ) (Fl.num Φ) (Ext.val : Ext Φ → Fl Φ) (fun _ => True) (fun _ => True) where
  sub _ _ := trivial
  lt _ _ _ _ := Iff.rfl
  low := trivial
  low_eq := ofFl_val low_ne
  big := trivial
  big_eq := ofFl_val big_ne
  side_low x y _ _ := by
    have := lt_ofFl (num Φ).low (x.1 - y.1)
    rw [show (num Φ).low.1 = (Fl.num Φ).low from ofFl_val low_ne] at this
    exact this.symm
  side x y z w _ _ _ _ h := by
    have hne : x.1 - y.1 ≠ .nan := by
      intro hc
      have h1 := (lt_ofFl (num Φ).low (x.1 - y.1)).1 h
      rw [hc] at h1
      exact not_lt_nan' _ h1
    have := lt_ofFl (ofFl (x.1 - y.1)) (z.1 - w.1)
    rw [ofFl_val hne] at this
    exact this.symm
  mul h := absurd h hr
  div _ x y z _ _ _ h := by
    have hne : y.1 - x.1 ≠ .nan := by
      intro hc
      have h1 := (lt_ofFl (num Φ).low (y.1 - x.1)).1 h
      rw [hc] at h1
      exact not_lt_nan' _ h1
    have e : ((num Φ).divTwo (y - x) + x : Ext Φ) = ofFl ((Fl.num Φ).divTwo (y.1 - x.1) + x.1) := by
      change ofFl ((ofFl ((Fl.num Φ).divTwo (ofFl (y.1 - x.1)).1)).1 + x.1) = _
      rw [ofFl_val hne, ofFl_val (show (Fl.num Φ).divTwo (y.1 - x.1) ≠ .nan from half_ne hne)]
    rw [e]
    exact (lt_ofFl z _).symm
  div_in _ x y z w _ _ _ _ h hz _ := by
    have hne : y.1 - x.1 ≠ .nan := by
      intro hc
      have h1 := (lt_ofFl (num Φ).low (y.1 - x.1)).1 h
      rw [hc] at h1
      exact not_lt_nan' _ h1
    have e : ((num Φ).divTwo (y - x) + x : Ext Φ) = ofFl ((Fl.num Φ).divTwo (y.1 - x.1) + x.1) := by
      change ofFl ((ofFl ((Fl.num Φ).divTwo (ofFl (y.1 - x.1)).1)).1 + x.1) = _
      rw [ofFl_val hne, ofFl_val (show (Fl.num Φ).divTwo (y.1 - x.1) ≠ .nan from half_ne hne)]
    rw [e] at hz ⊢
    refine ⟨trivial, (ofFl_val ?_).symm⟩
    intro hc
    have h1 := (lt_ofFl z _).1 hz
    rw [hc] at h1
    exact not_lt_nan' _ h1

/-- Finite numbers. -/
theorem finite_iff (x : Ext Φ) : ((num Φ).low ≤ x ∧ x ≤ (num Φ).big) ↔ ∃ y h, x.1 = .fin y h := by
  have hl : (num Φ).low.1 = (Fl.num Φ).low := ofFl_val low_ne
  have hb : (num Φ).big.1 = (Fl.num Φ).big := ofFl_val big_ne
  rw [le_def, le_def, hl, hb]
  obtain ⟨_ | s | ⟨y, h⟩, hx⟩ := x
  · exact absurd rfl hx
  · cases s <;> simp [Fl.num, fl_le_iff, Fl.ble]
  · simp only [Fl.num, fl_le_iff, Fl.ble, decide_eq_true_eq]
    exact ⟨fun _ => ⟨y, h, rfl⟩, fun _ => ⟨h.2.1, h.2.2⟩⟩

/-- The difference of ordered finite numbers is above `lowest()`, also if it overflows. -/
theorem low_lt_sub (y x : Ext Φ) (h1 : (num Φ).low ≤ y) (h2 : y ≤ x) (h3 : x ≤ (num Φ).big) :
    (num Φ).low < x - y := by
  obtain ⟨a, ha, ea⟩ := (finite_iff x).1 ⟨h1.trans h2, h3⟩
  obtain ⟨b, hb, eb⟩ := (finite_iff y).1 ⟨h1, h2.trans h3⟩
  have hl : (num Φ).low.1 = (Fl.num Φ).low := ofFl_val low_ne
  change _ < ofFl (x.1 - y.1)
  rw [lt_ofFl, hl, ea, eb]
  rw [le_def, ea, eb, fl_le_iff, Fl.ble, decide_eq_true_eq] at h2
  change (Fl.num Φ).low < Fl.ofK Φ (a + -b)
  have hr : 0 ≤ Φ.rd (a + -b) := by
    have := Φ.mono _ _ (show (0 : K) ≤ a + -b by linarith)
    rwa [Φ.rd_zero] at this
  have hp := Φ.big_pos
  unfold Fl.ofK
  split_ifs with c1 c2
  · simp [Fl.num, fl_lt_iff, Fl.blt]
  · linarith
  · simp only [Fl.num, fl_lt_iff, Fl.blt, decide_eq_true_eq]
    linarith

end Ext

end

/-! ## Box searches -/

section Box
variable {α γ : Type} {d : Nat} {β β' : Type}

theorem reportLeft_map (f : β → β') (t : Tree β) : reportLeft (t.map f) = reportLeft t := by
  induction t with
  | leaf b e => rfl
  | branch data l r ihl _ => exact ihl

theorem reportRight_map (f : β → β') (t : Tree β) : reportRight (t.map f) = reportRight t := by
  induction t with
  | leaf b e => rfl
  | branch data l r _ ihr => exact ihr

theorem reportNode_map (f : β → β') (indices : List Nat) (t : Tree β) (l : List Nat) :
    reportNode indices (t.map f) l = reportNode indices t l := by
  cases t with
  | leaf b e => rfl
  | branch data l r => simp only [Tree.map, reportNode, reportLeft_map, reportRight_map]

theorem Box.map_setMax (e : α → γ) (b : Box α d) (dim : Fin d) (v : α) :
    (b.map e).setMax dim (e v) = (b.setMax dim v).map e := by
  unfold Box.setMax Box.map
  congr 1
  funext j
  by_cases hj : j = dim
  · subst hj; simp
  · simp [Function.update_of_ne hj]

theorem Box.map_setMin (e : α → γ) (b : Box α d) (dim : Fin d) (v : α) :
    (b.map e).setMin dim (e v) = (b.setMin dim v).map e := by
  unfold Box.setMin Box.map
  congr 1
  funext j
  by_cases hj : j = dim
  · subst hj; simp
  · simp [Function.update_of_ne hj]

theorem searchBox_map (e : α → γ) (f : β → β') {sd : β → Fin d} {sd' : β' → Fin d} {lm rm : β → α}
    {lm' rm' : β' → γ} {cp : Nat → Bool} {cb : Box α d → Bool} {cb' : Box γ d → Bool} {il ir : β → Bool}
    {il' ir' : β' → Bool} (hsd : ∀ b, sd' (f b) = sd b) (hlm : ∀ b, lm' (f b) = e (lm b))
    (hrm : ∀ b, rm' (f b) = e (rm b)) (hcb : ∀ b, cb' (b.map e) = cb b) (hil : ∀ b, il' (f b) = il b)
    (hir : ∀ b, ir' (f b) = ir b) (indices : List Nat) (t : Tree β) (b : Box α d) (l : List Nat) :
    searchBox sd' lm' rm' cp cb' il' ir' indices (t.map f) (b.map e, l) =
      ((searchBox sd lm rm cp cb il ir indices t (b, l)).1.map e,
        (searchBox sd lm rm cp cb il ir indices t (b, l)).2) := by
  induction t generalizing b l with
  | leaf b e => rfl
  | branch data l r ihl ihr =>
    simp only [Tree.map, searchBox, hsd, hlm, hrm, hil, hir, Box.map_setMax, hcb, reportNode_map]
    have hm : ∀ b : Box α d, (b.map e).max (sd data) = e (b.max (sd data)) := fun _ => rfl
    have hn : ∀ b : Box α d, (b.map e).min (sd data) = e (b.min (sd data)) := fun _ => rfl
    by_cases h1 : cb (b.setMax (sd data) (lm data)) = true
    · simp only [if_pos h1, hm, hn, Box.map_setMax, Box.map_setMin, hcb]
      split_ifs <;> simp only [ihr, Box.map_setMin]
    · simp only [if_neg h1]
      by_cases h2 : il data = true
      · simp only [if_pos h2, ihl, hm, hn, Box.map_setMax, Box.map_setMin, hcb]
        split_ifs <;> simp only [ihr, Box.map_setMin]
      · simp only [if_neg h2, hm, hn, Box.map_setMax, Box.map_setMin, hcb]
        split_ifs <;> simp only [ihr, Box.map_setMin]

end Box

end Pico
