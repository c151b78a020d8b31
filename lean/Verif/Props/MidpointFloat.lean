import Verif.Proof.MidpointRounding
import Verif.Props.Midpoint
import Verif.Props.Rounding

/-!
# C23 in floating point arithmetic: when the midpoint rule terminates
-/

set_option linter.unusedSectionVars false

namespace Pico.Props

open Pico Spec

section
variable {α : Type} [LinearOrder α] [Add α] [Sub α] {d : Nat} {β : Type} {N : Num α}
  {pts : Nat → Pt α d} {n : Nat} {o : BuildOpts α d}

/-- A cell whose split value is rounded to its lower side is its own right half. -/
theorem createNode_stuck {C : BuildCfg α d β} (hr : C.rule = .midpoint) {m : Nat}
    (hs : C.stop = .maxLeafSize m) (hm : m < 2 ^ (C.indexBits - 1)) {box : Box α d} {j : Fin d} {delta : α}
    (hside : box.maxSide C.N = (some j, delta)) (hstuck : C.N.mulHalf delta + box.min j = box.min j)
    (fuel : Nat) : ∀ (depth : Int) (off : Nat) (seg : List Nat), m < seg.length →
      (∀ i ∈ seg, box.min j ≤ C.pts i j) → createNode C fuel depth off seg box = .oof := by
  induction fuel with
  | zero => intros; rfl
  | succ fuel ih =>
    intro depth off seg hlen hge
    have hl : isLeaf C depth seg.length = false := by
      simp only [isLeaf, hs, castIndex_eq hm, decide_eq_false_iff_not]
      exact_mod_cast not_le.2 hlen
    obtain ⟨sp, hsp⟩ : ∃ sp, splitter C seg box = .ok sp := by
      unfold splitter
      rw [hr]
      simp only [splitMidpoint, hside]
      exact ⟨_, rfl⟩
    obtain ⟨hso, ⟨delta', hms, hv, _⟩, _⟩ := splitter_ok hsp
    rw [hside, Prod.mk.injEq, Option.some.injEq] at hms
    obtain ⟨hj, hd⟩ := hms
    have hval : sp.val = box.min j := by rw [hv hr, ← hd, ← hj, hstuck]
    have hleft := splitter_midpoint hr hsp
    have hnil : sp.seg.take sp.pos = [] := by
      rw [List.eq_nil_iff_forall_not_mem]
      intro i hi
      have h1 := hleft i hi
      have h2 := hge i (hso.perm.subset (List.mem_of_mem_take hi))
      rw [hval, ← hj] at h1
      exact absurd h1 (not_lt.2 h2)
    have hdrop : (sp.seg.drop sp.pos).Perm seg := by
      have := hso.perm
      rwa [← List.take_append_drop sp.pos sp.seg, hnil, List.nil_append] at this
    have hbox : box.setMin sp.dim sp.val = box := by
      rw [hval, ← hj]
      simp [Box.setMin]
    rw [createNode, hl, hsp]
    simp only [Bool.false_eq_true, if_false, Outcome.bind, hnil, hbox]
    rw [ih (depth + 1) (off + sp.pos) _ (by rw [hdrop.length_eq]; exact hlen)
      (fun i hi => hge i (hdrop.subset hi))]
    have hempty : isLeaf C (depth + 1) ([] : List Nat).length = true := by
      simp [isLeaf, hs, castIndex_eq hm]
    cases fuel with
    | zero => rfl
    | succ fuel =>
      rw [createNode, hempty]
      rfl

/-- C23 is false in rounded arithmetic even if no two points coincide: if the split value of the start box
is rounded to the lower side of the box, the construction never ends, whatever the fuel. -/
theorem c23_stuck_false (tag : SpaceTag α d β) (M : Metric α d) (hr : o.rule = .midpoint) {m : Nat}
    (hs : o.stop = .maxLeafSize m) (hm : m < 2 ^ (o.indexBits - 1)) (hn : m < n) {j : Fin d} {delta : α}
    (hside : (boxFromBounds N pts n o.bounds).maxSide N = (some j, delta))
    (hstuck : N.mulHalf delta + (boxFromBounds N pts n o.bounds).min j = (boxFromBounds N pts n o.bounds).min j)
    (hge : ∀ i < n, (boxFromBounds N pts n o.bounds).min j ≤ pts i j) (fuel : Nat) :
    KdTree.make tag M N pts n o fuel = .oof := by
  have h := createNode_stuck (C := KdTree.cfg tag N pts o) hr hs hm hside hstuck fuel 0 0 (List.range n)
    (by simpa using hn) (fun i hi => hge i (List.mem_range.1 hi))
  unfold KdTree.make buildTree
  simp only [KdTree.cfg] at h ⊢
  rw [h]
  rfl

end

section
variable {K : Type} [Field K] [LinearOrder K] [IsStrictOrderedRing K] [Archimedean K] {R : Rounding K} {d : Nat}
  {β : Type} {pts : Nat → Pt R.F d} {n : Nat} {o : BuildOpts R.F d} {u : K} {low big : R.F}

/-- C23 (partial: coordinates that differ, differ by at least `16 u` times the largest coordinate; missing:
coordinates that are closer, see `c23_stuck_false`, and more than `m` coincident points, see `c23_false`): with
rounding errors of at most `u` the construction finishes. -/
theorem c23_rounding_partial (tag : SpaceTag R.F d β) (M : Metric R.F d) (hu : R.Error u) (hu0 : 0 ≤ u)
    (hu1 : u ≤ 1 / 16) (hr : o.rule = .midpoint) {m : Nat} (hs : o.stop = .maxLeafSize m)
    (hm : m < 2 ^ (o.indexBits - 1)) (hn : 0 < n) {B G : R.F} (hN : low ≤ 0 ∧ 0 ≤ big) (hB : 0 ≤ B)
    (hp : ∀ i < n, ∀ j, -B ≤ pts i j ∧ pts i j ≤ B)
    (hb : ∀ mn mx, o.bounds = .given mn mx → ∀ j, (-B ≤ mn j ∧ mn j ≤ B) ∧ (-B ≤ mx j ∧ mx j ≤ B))
    (hbox : ∀ i < n, (boxFromBounds (R.num low big) pts n o.bounds).Mem (pts i)) (hG : 0 < G)
    (hGB : 16 * u * B.1 ≤ G.1)
    (hgap : ∀ i < n, ∀ k < n, ∀ j, pts i j < pts k j → G.1 ≤ (pts k j).1 - (pts i j).1)
    (hhalf : ∀ x : R.F, G ≤ x → |R.rd (x.1 / 2) - x.1 / 2| ≤ u * (x.1 / 2))
    (hdup : ∀ p, (List.range n).countP (fun i => decide (pts i = p)) ≤ m) :
    ∃ fuel T, ∀ f ≥ fuel, KdTree.make tag M (R.num low big) pts n o f = .ok T := by
  have hG0 : 0 < G.1 := by rw [R.lt_iff] at hG; exact hG
  have hB0 : 0 ≤ B.1 := by rw [R.le_iff] at hB; exact hB
  have hS := shorter_of_error (low := low) (big := big) (lo := -B) (hi := B) (B := B.1) hu hu0 hu1
    (by rw [R.val_neg]) le_rfl hG0 hGB hhalf
  have hg : (0 : K) < G.1 / 2 := by linarith
  have hnegB : -B ≤ B := by rw [R.le_iff, R.val_neg]; linarith
  have hw : Within (-B) B (boxFromBounds (R.num low big) pts n o.bounds) :=
    boxFromBounds_within hn ⟨hN.1.trans hB, le_trans (by rw [R.le_iff, R.val_neg, R.val_zero]; linarith) hN.2⟩ hp hb
  have hGg : ∀ a b : R.F, G ≤ b - a → G.1 / 2 ≤ b.1 - a.1 := by
    intro a b hab
    rw [R.le_iff, R.val_sub] at hab
    have e1 : |R.rd (b.1 - a.1) - (b.1 - a.1)| ≤ u * |b.1 - a.1| := by
      have := hu b.1 (-a.1) b.2 (by rw [R.odd, a.2])
      simpa [sub_eq_add_neg] using this
    have hpos : 0 < b.1 - a.1 := by
      by_contra hc
      push Not at hc
      have := R.mono _ _ hc
      rw [R.rd_zero] at this
      linarith
    rw [abs_of_pos hpos] at e1
    have := (abs_le.1 e1).2
    nlinarith
  have hgap' : ∀ i < n, ∀ k < n, ∀ j, pts i j < pts k j → G ≤ pts k j - pts i j := by
    intro i hi k hk j h
    rw [R.le_iff, R.val_sub, ← G.2]
    exact R.mono _ _ (hgap i hi k hk j h)
  have hex : ∀ j, ∃ e : Nat, ((boxFromBounds (R.num low big) pts n o.bounds).max j).1 -
      ((boxFromBounds (R.num low big) pts n o.bounds).min j).1 < G.1 / 2 * (5 / 4) ^ e := by
    intro j
    obtain ⟨e, he⟩ := pow_unbounded_of_one_lt ((((boxFromBounds (R.num low big) pts n o.bounds).max j).1 -
      ((boxFromBounds (R.num low big) pts n o.bounds).min j).1) / (G.1 / 2)) (show (1 : K) < 5 / 4 by norm_num)
    refine ⟨e, ?_⟩
    rw [div_lt_iff₀ hg] at he
    linarith [mul_comm (G.1 / 2) ((5 / 4 : K) ^ e)]
  choose e he using hex
  obtain ⟨t, s, bx, hc⟩ := created_exists_shorter (C := KdTree.cfg tag (R.num low big) pts o) hr hS (by norm_num)
    hGg (lt_of_le_of_lt hN.1 hG) hs hm hgap' _ e 0 0 (List.range n) (boxFromBounds (R.num low big) pts n o.bounds)
    rfl he (fun j => ⟨(hw j).1.1, (hw j).2.2⟩) (fun i hi => List.mem_range.1 hi)
    (fun i hi => hbox i (List.mem_range.1 hi)) hdup
  exact make_of_created hc

end

/-- C23 (partial, as above) for `float` (`p = 23`) and `double` (`p = 52`) with the bounds of the space:
coordinates that differ, differ by at least `2 ^ (3 - p)` times the largest one, and not by less than
twice the smallest normal number. -/
theorem c23_ieee_partial {p : Nat} {e : ℤ} {d : Nat} {β : Type} {pts : Nat → Pt (ieee p e).F d} {n : Nat}
    {o : BuildOpts (ieee p e).F d} {low big : (ieee p e).F} (tag : SpaceTag (ieee p e).F d β)
    (M : Metric (ieee p e).F d) (hp3 : 3 ≤ p) (hr : o.rule = .midpoint) {m : Nat} (hs : o.stop = .maxLeafSize m)
    (hm : m < 2 ^ (o.indexBits - 1)) (hn : 0 < n) (hbounds : o.bounds = .fromSpace) {B G : (ieee p e).F}
    (hN : low ≤ 0 ∧ 0 ≤ big) (hB : 0 ≤ B) (hp : ∀ i < n, ∀ j, -B ≤ pts i j ∧ pts i j ≤ B)
    (hGB : 8 / 2 ^ p * B.1 ≤ G.1) (hGe : 2 * 2 ^ (e + p) ≤ G.1)
    (hgap : ∀ i < n, ∀ k < n, ∀ j, pts i j < pts k j → G.1 ≤ (pts k j).1 - (pts i j).1)
    (hdup : ∀ p, (List.range n).countP (fun i => decide (pts i = p)) ≤ m) :
    ∃ fuel T, ∀ f ≥ fuel, KdTree.make tag M ((ieee p e).num low big) pts n o f = .ok T := by
  have hnorm : ∀ x : ℚ, 2 ^ (e + p) ≤ x → |(ieee p e).rd x - x| ≤ 1 / 2 ^ (p + 1) * x := by
    intro x hx
    have h0 : 0 < x := lt_of_lt_of_le (by positivity) hx
    have := roundBits_relative p x
    rw [roundBits_of_pos h0, abs_of_pos h0] at this
    change |roundTiny p e x - x| ≤ _
    rw [roundTiny_of_nonneg h0.le]
    unfold roundTinyPos
    rw [if_pos hx]
    exact this
  have hu1 : (1 : ℚ) / 2 ^ (p + 1) ≤ 1 / 16 := by
    have : (16 : ℚ) ≤ 2 ^ (p + 1) := by
      calc (16 : ℚ) = 2 ^ 4 := by norm_num
        _ ≤ 2 ^ (p + 1) := pow_le_pow_right₀ (by norm_num) (by omega)
    exact one_div_le_one_div_of_le (by norm_num) this
  have hpos : (0 : ℚ) < 2 ^ (e + p) := by positivity
  refine c23_rounding_partial tag M (ieee_relative p e) (by positivity) hu1 hr hs hm hn hN hB hp
    (by intro mn mx h; rw [hbounds] at h; cases h) (by rw [hbounds]; exact boxFromBounds_fromSpace_mem _ _ _)
    (G := G) ?_ ?_ hgap ?_ hdup
  · rw [(ieee p e).lt_iff, (ieee p e).val_zero]
    linarith
  · refine le_trans (le_of_eq ?_) hGB
    rw [pow_succ]
    field_simp
    ring
  · intro x hx
    rw [(ieee p e).le_iff] at hx
    exact hnorm _ (by linarith)

/-! ## Concrete cases -/

/-- `1` and the next single precision number. -/
def nextToOne : Nat → Pt F32 1
  | 0 => ![f32 1]
  | _ => ![(ieee 23 (-149)).ofK (1 + 1 / 2 ^ 23)]

/-- Midpoint rule with one point in each leaf. -/
def optsMidF32 (d : Nat) : BuildOpts F32 d := ⟨Ref.std, .midpoint, .maxLeafSize 1, .fromSpace, 32⟩

/-- C23 is false for `float`: two different points for which the construction never ends. -/
theorem c23_float_false : nextToOne 0 ≠ nextToOne 1 ∧ ∀ fuel, KdTree.make (euclideanTag F32 1) (metricL2Sq F32 1)
    f32Num nextToOne 2 (optsMidF32 1) fuel = .oof := by
  refine ⟨by decide +kernel, fun fuel => ?_⟩
  exact c23_stuck_false (m := 1) (j := 0) (delta := (ieee 23 (-149)).ofK (1 / 2 ^ 23)) _ _ rfl rfl (by decide)
    (by decide) (by decide +kernel) (by decide +kernel) (by decide +kernel) fuel

/-- Three points, two of them `2^-19` apart, are no problem: the largest coordinate is `2`. -/
def nearOne : Nat → Pt F32 1
  | 0 => ![f32 1]
  | 1 => ![(ieee 23 (-149)).ofK (1 + 1 / 2 ^ 19)]
  | _ => ![f32 2]

example : ∃ fuel T, ∀ f ≥ fuel, KdTree.make (euclideanTag F32 1) (metricL2Sq F32 1) f32Num nearOne 3
    (optsMidF32 1) f = .ok T := by
  refine c23_ieee_partial (m := 1) (B := f32 2) (G := (ieee 23 (-149)).ofK (1 / 2 ^ 19)) _ _ (by decide) rfl rfl
    (by decide) (by decide) rfl (by decide +kernel) (by decide +kernel) (by decide +kernel) (by decide +kernel)
    (by decide +kernel) (by decide +kernel) ?_
  intro p
  have h : List.range 3 = [0, 1, 2] := rfl
  have h01 : nearOne 0 ≠ nearOne 1 := by decide +kernel
  have h02 : nearOne 0 ≠ nearOne 2 := by decide +kernel
  have h12 : nearOne 1 ≠ nearOne 2 := by decide +kernel
  rw [h]
  simp only [List.countP_cons, List.countP_nil, decide_eq_true_eq]
  split_ifs with h1 h2 h3 h4 h5 h6 <;> simp_all

end Pico.Props
