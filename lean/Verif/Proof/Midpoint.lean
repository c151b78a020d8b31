import Verif.Proof.Shape
import Verif.SpecCell
import Mathlib.Algebra.Order.Archimedean.Basic
import Mathlib.Algebra.Order.BigOperators.Group.Finset
import Mathlib.Data.Fintype.BigOperators

/-! # The midpoint rule: termination, cells, leaf order -/

set_option linter.unusedSectionVars false

namespace Pico

open Spec

section
variable {α : Type} [LinearOrder α] [Add α] [Sub α] {d : Nat} {β : Type} {C : BuildCfg α d β}

/-- The midpoint rule puts exactly the points below the split value to the left. -/
theorem splitter_midpoint (hr : C.rule = .midpoint) {seg : List Nat} {box : Box α d}
    {sp : Split α d} (hs : splitter C seg box = .ok sp) :
    ∀ i ∈ sp.seg.take sp.pos, C.pts i sp.dim < sp.val := by
  unfold splitter at hs
  rw [hr] at hs
  simp only [splitMidpoint] at hs
  split at hs
  · simp at hs
  · simp only [Outcome.ok.injEq] at hs
    subst hs
    intro i hi
    simpa [coordBelow] using C.S.partition_left _ _ i hi

/-- More than `m` coincident points can never be separated by the midpoint rule. -/
theorem not_created_coincident (hr : C.rule = .midpoint) {m : Nat} (hst : C.stop = .maxLeafSize m)
    (hm : m < 2 ^ (C.indexBits - 1)) (p : Pt α d) {depth : Int} {o : Nat} {seg : List Nat}
    {box : Box α d} {t : Tree β} {seg' : List Nat} {box' : Box α d}
    (h : Created C depth o seg box t seg' box') : seg.countP (fun i => decide (C.pts i = p)) ≤ m := by
  induction h with
  | @leaf depth o seg box hl =>
    simp only [isLeaf, hst, castIndex_eq hm, decide_eq_true_eq] at hl
    have h1 := List.countP_le_length (p := fun i => decide (C.pts i = p)) (l := seg)
    have h2 : seg.length ≤ m := by exact_mod_cast hl
    exact h1.trans h2
  | @branch depth o seg box sp l r segL segR boxL boxR hl hs _ _ ih1 ih2 =>
    have hso := (splitter_ok hs).1
    rw [← hso.perm.countP_eq, ← List.take_append_drop sp.pos sp.seg, List.countP_append]
    by_cases hc : p sp.dim < sp.val
    · have h0 : (sp.seg.drop sp.pos).countP (fun i => decide (C.pts i = p)) = 0 := by
        rw [List.countP_eq_zero]
        intro i hi hp
        have h1 := hso.right_ge i hi
        rw [of_decide_eq_true hp] at h1
        exact absurd hc (not_lt.2 h1)
      omega
    · have h0 : (sp.seg.take sp.pos).countP (fun i => decide (C.pts i = p)) = 0 := by
        rw [List.countP_eq_zero]
        intro i hi hp
        have h1 := splitter_midpoint hr hs i hi
        rw [of_decide_eq_true hp] at h1
        exact hc h1
      omega

/-- The midpoint rule never runs into undefined behaviour. -/
theorem createNode_midpoint_ne_ub {a b : α} (hS : SplitSafe C.N a b) (hd : 0 < d)
    (hr : C.rule = .midpoint) (fuel : Nat) :
    ∀ (depth : Int) (o : Nat) (seg : List Nat) (box : Box α d), Within a b box →
      (∀ i ∈ seg, ∀ j, a ≤ C.pts i j ∧ C.pts i j ≤ b) → createNode C fuel depth o seg box ≠ .ub := by
  induction fuel with
  | zero => intro depth o seg box _ _ h; simp [createNode] at h
  | succ fuel ih =>
    intro depth o seg box hw hp
    rw [createNode]
    split_ifs with hl
    · simp
    · obtain ⟨sp, hs⟩ := splitter_isOk_midpoint hS hr hw hd (seg := seg)
      have hv := splitter_val_within hS hw hs hp
      have hmem := splitter_mem hs
      rw [hs]
      simp only [Outcome.bind]
      have h1 := ih (depth + 1) o (sp.seg.take sp.pos) (box.setMax sp.dim sp.val)
        (within_setMax hw hv) (fun i hi => hp i (hmem.1 i hi))
      have h2 := ih (depth + 1) (o + sp.pos) (sp.seg.drop sp.pos) (box.setMin sp.dim sp.val)
        (within_setMin hw hv) (fun i hi => hp i (hmem.2 i hi))
      cases e1 : createNode C fuel (depth + 1) o (sp.seg.take sp.pos) (box.setMax sp.dim sp.val) with
      | ub => exact absurd e1 h1
      | oof => simp
      | ok x =>
        cases e2 : createNode C fuel (depth + 1) (o + sp.pos) (sp.seg.drop sp.pos)
            (box.setMin sp.dim sp.val) with
        | ub => exact absurd e2 h2
        | oof => simp
        | ok y => simp

end

section
variable {α : Type} [Field α] [LinearOrder α] [IsStrictOrderedRing α] {d : Nat} {β : Type}
  {C : BuildCfg α d β}

/-- A positive lower bound on finitely many positive numbers. -/
theorem exists_pos_le (S : Finset α) (h : ∀ x ∈ S, 0 < x) : ∃ ε > 0, ∀ x ∈ S, ε ≤ x := by
  induction S using Finset.induction_on with
  | empty => exact ⟨1, one_pos, by simp⟩
  | insert a S ha ih =>
    obtain ⟨ε, h1, h2⟩ := ih (fun x hx => h x (Finset.mem_insert_of_mem hx))
    refine ⟨min a ε, lt_min (h a (Finset.mem_insert_self _ _)) h1, ?_⟩
    intro x hx
    rcases Finset.mem_insert.1 hx with rfl | hx
    · exact min_le_left _ _
    · exact (min_le_right _ _).trans (h2 x hx)

/-- The smallest positive coordinate difference in a finite point set. -/
theorem exists_gap (pts : Nat → Pt α d) (n : Nat) :
    ∃ ε > 0, ∀ i < n, ∀ k < n, ∀ j, pts i j < pts k j → ε ≤ pts k j - pts i j := by
  classical
  obtain ⟨ε, h1, h2⟩ := exists_pos_le
    (((Finset.range n ×ˢ Finset.range n) ×ˢ (Finset.univ : Finset (Fin d))).image
      (fun x => pts x.1.2 x.2 - pts x.1.1 x.2) |>.filter (fun x => 0 < x))
    (fun x hx => (Finset.mem_filter.1 hx).2)
  refine ⟨ε, h1, fun i hi k hk j hlt => h2 _ ?_⟩
  rw [Finset.mem_filter, Finset.mem_image]
  refine ⟨⟨((i, k), j), ?_, rfl⟩, sub_pos.2 hlt⟩
  simp [hi, hk]

/-- What one split of the midpoint rule does in exact arithmetic. -/
theorem splitter_half (hr : C.rule = .midpoint) (hmul : ∀ x, C.N.mulHalf x = x / 2)
    {seg : List Nat} {box : Box α d} {sp : Split α d} (hs : splitter C seg box = .ok sp) :
    FirstLongest box sp.dim ∧ box.setMax sp.dim sp.val = lowerHalf box sp.dim ∧
      box.setMin sp.dim sp.val = upperHalf box sp.dim ∧
      sp.val = (box.min sp.dim + box.max sp.dim) / 2 := by
  obtain ⟨_, ⟨delta, hm, hv, _⟩, _⟩ := splitter_ok hs
  obtain ⟨h1, _, h3, h4⟩ := maxSide_some hm
  have hval : sp.val = (box.min sp.dim + box.max sp.dim) / 2 := by
    rw [hv hr, hmul, h1]; ring
  refine ⟨⟨?_, ?_⟩, ?_, ?_, hval⟩
  · intro i; rw [side, side, ← h1]; exact h4 i
  · intro i hi; rw [side, side, ← h1]; exact h3 i hi
  · simp only [Box.setMax, lowerHalf, Box.mk.injEq, true_and]
    funext i
    by_cases hi : i = sp.dim
    · subst hi; simp [hval]
    · simp [hi]
  · simp only [Box.setMin, upperHalf, Box.mk.injEq, and_true]
    funext i
    by_cases hi : i = sp.dim
    · subst hi; simp [hval]
    · simp [hi]

theorem side_lowerHalf_self (b : Box α d) (j : Fin d) : side (lowerHalf b j) j = side b j / 2 := by
  simp only [side, lowerHalf, if_true]; ring

theorem side_upperHalf_self (b : Box α d) (j : Fin d) : side (upperHalf b j) j = side b j / 2 := by
  simp only [side, upperHalf, if_true]; ring

theorem side_lowerHalf_ne (b : Box α d) {i j : Fin d} (h : i ≠ j) :
    side (lowerHalf b j) i = side b i := by simp [side, lowerHalf, h]

theorem side_upperHalf_ne (b : Box α d) {i j : Fin d} (h : i ≠ j) :
    side (upperHalf b j) i = side b i := by simp [side, upperHalf, h]

/-- The children of a split keep their points inside their halves. -/
theorem mem_halves (hr : C.rule = .midpoint) (hmul : ∀ x, C.N.mulHalf x = x / 2)
    {seg : List Nat} {box : Box α d} {sp : Split α d} (hs : splitter C seg box = .ok sp)
    (hmem : ∀ i ∈ seg, box.Mem (C.pts i)) :
    (∀ i ∈ sp.seg.take sp.pos, (lowerHalf box sp.dim).Mem (C.pts i)) ∧
    ∀ i ∈ sp.seg.drop sp.pos, (upperHalf box sp.dim).Mem (C.pts i) := by
  have hso := (splitter_ok hs).1
  obtain ⟨_, e1, e2, _⟩ := splitter_half hr hmul hs
  rw [← e1, ← e2]
  constructor
  · intro i hi j
    have h1 := hmem i ((splitter_mem hs).1 i hi) j
    refine ⟨h1.1, ?_⟩
    by_cases hj : j = sp.dim
    · subst hj; simpa using hso.left_le i hi
    · rw [Box.setMax_max_ne _ _ hj]; exact h1.2
  · intro i hi j
    have h1 := hmem i ((splitter_mem hs).2 i hi) j
    refine ⟨?_, h1.2⟩
    by_cases hj : j = sp.dim
    · subst hj; simpa using hso.right_ge i hi
    · rw [Box.setMin_min_ne _ _ hj]; exact h1.1

/-! ## Termination of the midpoint rule with `max_leaf_size` -/

theorem created_exists_midpoint (hr : C.rule = .midpoint) (hmul : ∀ x, C.N.mulHalf x = x / 2)
    (hlow : C.N.low ≤ 0) {m : Nat} (hst : C.stop = .maxLeafSize m) (hm : m < 2 ^ (C.indexBits - 1))
    {n : Nat} {ε : α} (hε : 0 < ε)
    (hgap : ∀ i < n, ∀ k < n, ∀ j, C.pts i j < C.pts k j → ε ≤ C.pts k j - C.pts i j) (K : Nat) :
    ∀ (e : Fin d → Nat) (depth : Int) (o : Nat) (seg : List Nat) (box : Box α d), ∑ j, e j = K →
      (∀ j, side box j < ε * 2 ^ e j) → (∀ i ∈ seg, i < n) → (∀ i ∈ seg, box.Mem (C.pts i)) →
      (∀ p, seg.countP (fun i => decide (C.pts i = p)) ≤ m) →
      ∃ t seg' box', Created C depth o seg box t seg' box' := by
  induction K using Nat.strong_induction_on with
  | _ K ih =>
    intro e depth o seg box hK hside hn hmem hcount
    by_cases hlen : seg.length ≤ m
    · refine ⟨_, _, _, .leaf ?_⟩
      simp only [isLeaf, hst, castIndex_eq hm, decide_eq_true_eq]
      exact_mod_cast hlen
    · have hl : isLeaf C depth seg.length = false := by
        simp only [isLeaf, hst, castIndex_eq hm, decide_eq_false_iff_not]
        exact_mod_cast hlen
      -- two points that differ
      obtain ⟨i0, hi0⟩ : ∃ i0, i0 ∈ seg := List.exists_mem_of_length_pos (by omega)
      obtain ⟨k0, hk0, hne⟩ : ∃ k ∈ seg, C.pts k ≠ C.pts i0 := by
        by_contra hc
        push Not at hc
        have : seg.countP (fun i => decide (C.pts i = C.pts i0)) = seg.length := by
          rw [List.countP_eq_length]
          intro k hk
          simpa using hc k hk
        have := hcount (C.pts i0)
        omega
      obtain ⟨j0, hj0⟩ : ∃ j, C.pts k0 j ≠ C.pts i0 j := by
        by_contra hc
        push Not at hc
        exact hne (funext hc)
      have hbig : ε ≤ side box j0 := by
        have a1 := hmem i0 hi0 j0
        have a2 := hmem k0 hk0 j0
        unfold side
        rcases lt_or_gt_of_ne hj0 with h | h
        · have := hgap k0 (hn _ hk0) i0 (hn _ hi0) j0 h
          linarith [a1.2, a2.1]
        · have := hgap i0 (hn _ hi0) k0 (hn _ hk0) j0 h
          linarith [a1.1, a2.2]
      obtain ⟨sp, hs⟩ : ∃ sp, splitter C seg box = .ok sp := by
        rcases hms : box.maxSide C.N with ⟨dim, delta⟩
        cases dim with
        | none =>
          have h1 := maxSide_none (N := C.N) (b := box) (by rw [hms]) j0
          unfold side at hbig
          linarith
        | some dim =>
          unfold splitter
          rw [hr]
          simp only [splitMidpoint, hms]
          exact ⟨_, rfl⟩
      obtain ⟨hfl, e1, e2, _⟩ := splitter_half hr hmul hs
      obtain ⟨m1, m2⟩ := mem_halves hr hmul hs hmem
      have hge : ε ≤ side box sp.dim := hbig.trans (hfl.1 j0)
      have hpos : e sp.dim ≠ 0 := by
        intro h0
        have := hside sp.dim
        rw [h0, pow_zero, mul_one] at this
        exact absurd this (not_lt.2 hge)
      obtain ⟨c, hc⟩ := Nat.exists_eq_succ_of_ne_zero hpos
      have hsum : ∑ j, (Function.update e sp.dim c) j < K := by
        rw [← hK]
        refine Finset.sum_lt_sum ?_ ⟨sp.dim, Finset.mem_univ _, by simp [hc]⟩
        intro j _
        by_cases hj : j = sp.dim
        · subst hj; simp [hc]
        · simp [hj]
      have hhalf : side box sp.dim / 2 < ε * 2 ^ c := by
        have := hside sp.dim
        rw [hc, pow_succ] at this
        linarith
      have hcountT : ∀ p, (sp.seg.take sp.pos).countP (fun i => decide (C.pts i = p)) ≤ m := fun p =>
        ((List.take_sublist _ _).countP_le).trans
          (by rw [(splitter_ok hs).1.perm.countP_eq]; exact hcount p)
      have hcountD : ∀ p, (sp.seg.drop sp.pos).countP (fun i => decide (C.pts i = p)) ≤ m := fun p =>
        ((List.drop_sublist _ _).countP_le).trans
          (by rw [(splitter_ok hs).1.perm.countP_eq]; exact hcount p)
      have hsideL : ∀ j, side (lowerHalf box sp.dim) j < ε * 2 ^ (Function.update e sp.dim c) j := by
        intro j
        by_cases hj : j = sp.dim
        · subst hj; rw [side_lowerHalf_self]; simpa using hhalf
        · rw [side_lowerHalf_ne _ hj]; simpa [hj] using hside j
      have hsideR : ∀ j, side (upperHalf box sp.dim) j < ε * 2 ^ (Function.update e sp.dim c) j := by
        intro j
        by_cases hj : j = sp.dim
        · subst hj; rw [side_upperHalf_self]; simpa using hhalf
        · rw [side_upperHalf_ne _ hj]; simpa [hj] using hside j
      obtain ⟨l, sl, bl, hL⟩ := ih _ hsum _ (depth + 1) o _ (lowerHalf box sp.dim) rfl hsideL
        (fun i hi => hn i ((splitter_mem hs).1 i hi)) m1 hcountT
      obtain ⟨r, sr, br, hR⟩ := ih _ hsum _ (depth + 1) (o + sp.pos) _ (upperHalf box sp.dim) rfl hsideR
        (fun i hi => hn i ((splitter_mem hs).2 i hi)) m2 hcountD
      rw [← e1] at hL
      rw [← e2] at hR
      exact ⟨_, _, _, .branch hl hs hL hR⟩

/-! ## Cells -/

theorem slice_left {τ : Type} {v a b : List τ} {o : Nat}
    (h : slice v o (o + (a ++ b).length) = a ++ b) : slice v o (o + a.length) = a := by
  have := congrArg (List.take a.length) h
  simp only [slice, List.take_take, List.take_left, List.length_append] at this
  rw [show min a.length (o + (a.length + b.length) - o) = o + a.length - o by omega] at this
  exact this

theorem slice_right {τ : Type} {v a b : List τ} {o : Nat}
    (h : slice v o (o + (a ++ b).length) = a ++ b) :
    slice v (o + a.length) (o + a.length + b.length) = b := by
  have := congrArg (List.drop a.length) h
  simp only [slice, List.drop_take, List.drop_left, List.length_append, List.drop_drop] at this
  rw [show o + (a.length + b.length) - o - a.length = o + a.length + b.length - (o + a.length) by
    omega] at this
  exact this

/-- A finished construction with the midpoint rule subdivides the start box. -/
theorem Created.subdivides (hr : C.rule = .midpoint) (hmul : ∀ x, C.N.mulHalf x = x / 2)
    {splitDim : β → Fin d} (hsd : ∀ bl br dim, splitDim (C.setBranch bl br dim) = dim)
    {P : Box α d → Prop}
    (hP : ∀ b j, P b → FirstLongest b j → P (lowerHalf b j) ∧ P (upperHalf b j))
    {depth : Int} {o : Nat} {seg : List Nat} {box : Box α d} {t : Tree β} {seg' : List Nat}
    {box' : Box α d} (h : Created C depth o seg box t seg' box') (v : List Nat)
    (hv : slice v o (o + seg'.length) = seg') (hmem : ∀ i ∈ seg, box.Mem (C.pts i)) (hbox : P box) :
    Subdivides splitDim C.pts v P FirstLongest box t := by
  induction h with
  | @leaf depth o seg box hl =>
    refine ⟨hbox, fun i hi => ?_⟩
    have : (v.drop o).take (o + seg.length - o) = seg := hv
    rw [this] at hi
    exact hmem i hi
  | @branch depth o seg box sp l r segL segR boxL boxR hl hs h1 h2 ih1 ih2 =>
    obtain ⟨hfl, e1, e2, _⟩ := splitter_half hr hmul hs
    obtain ⟨m1, m2⟩ := mem_halves hr hmul hs hmem
    obtain ⟨p1, p2⟩ := hP _ _ hbox hfl
    have hlen : segL.length = sp.pos := by rw [h1.perm.length_eq]; exact splitter_take_length hs
    have v1 := slice_left hv
    have v2 := slice_right hv
    rw [hlen] at v2
    rw [Subdivides, hsd]
    rw [e1] at ih1
    rw [e2] at ih2
    exact ⟨hbox, hfl, ih1 v1 m1 p1, ih2 v2 m2 p2⟩

/-- All sides are `s` or `s / 2`, for some `s`. -/
def TwoSides (b : Box α d) : Prop := ∃ s, 0 ≤ s ∧ ∀ j, side b j = s ∨ side b j = s / 2

theorem TwoSides.aspect {b : Box α d} (h : TwoSides b) : Aspect2 b := by
  obtain ⟨s, hs, h⟩ := h
  intro i j
  rcases h i with h1 | h1 <;> rcases h j with h2 | h2 <;> rw [h1, h2] <;> linarith

theorem TwoSides.half {b : Box α d} {j : Fin d} (h : TwoSides b) (hj : FirstLongest b j) :
    TwoSides (lowerHalf b j) ∧ TwoSides (upperHalf b j) := by
  obtain ⟨s, hs, h⟩ := h
  have key : ∃ s', 0 ≤ s' ∧ (∀ i, i ≠ j → side b i = s' ∨ side b i = s' / 2) ∧
      (side b j / 2 = s' ∨ side b j / 2 = s' / 2) := by
    rcases h j with h1 | h1
    · exact ⟨s, hs, fun i _ => h i, Or.inr (by rw [h1])⟩
    · refine ⟨s / 2, by linarith, fun i hi => ?_, Or.inr (by rw [h1])⟩
      have := hj.1 i
      rcases h i with h2 | h2
      · left; rw [h1, h2] at this; rw [h2]; linarith
      · left; exact h2
  obtain ⟨s', h0, h1, h2⟩ := key
  constructor
  · refine ⟨s', h0, fun i => ?_⟩
    by_cases hi : i = j
    · subst hi; rw [side_lowerHalf_self]; exact h2
    · rw [side_lowerHalf_ne _ hi]; exact h1 i hi
  · refine ⟨s', h0, fun i => ?_⟩
    by_cases hi : i = j
    · subst hi; rw [side_upperHalf_self]; exact h2
    · rw [side_upperHalf_ne _ hi]; exact h1 i hi

theorem Subdivides.mono {splitDim : β → Fin d} {pts : Nat → Pt α d} {v : List Nat}
    {P P' : Box α d → Prop} {Q : Box α d → Fin d → Prop} (hP : ∀ b, P b → P' b) {t : Tree β}
    {b : Box α d} (h : Subdivides splitDim pts v P Q b t) : Subdivides splitDim pts v P' Q b t := by
  induction t generalizing b with
  | leaf x y => exact ⟨hP _ h.1, h.2⟩
  | branch data l r ih1 ih2 => exact ⟨hP _ h.1, h.2.1, ih1 h.2.2.1, ih2 h.2.2.2⟩

/-! ## Leaf order -/

/-- State of the regular subdivision of a cube with lower corner `c` and side `s` after `t` halvings:
axis `j` has been halved `t / d` times, and once more if `j < t % d`. -/
def halvings (d t : Nat) (j : Fin d) : Nat := t / d + if j.val < t % d then 1 else 0

theorem halvings_self {t : Nat} {j : Fin d} (h : j.val = t % d) : halvings d t j = t / d := by
  simp [halvings, h]

theorem succ_div_mod {t : Nat} (hd : 0 < d) :
    (t % d + 1 = d ∧ (t + 1) / d = t / d + 1 ∧ (t + 1) % d = 0) ∨
    (t % d + 1 < d ∧ (t + 1) / d = t / d ∧ (t + 1) % d = t % d + 1) := by
  have hlt := Nat.mod_lt t hd
  have ht := Nat.div_add_mod t d
  generalize t / d = q at *
  generalize t % d = r at *
  subst ht
  rw [Nat.add_assoc]
  by_cases hc : r + 1 = d
  · left
    refine ⟨hc, ?_, ?_⟩
    · rw [Nat.mul_add_div hd, hc, Nat.div_self hd]
    · rw [Nat.mul_add_mod, hc, Nat.mod_self]
  · right
    have h : r + 1 < d := by omega
    refine ⟨h, ?_, ?_⟩
    · rw [Nat.mul_add_div hd, Nat.div_eq_of_lt h, Nat.add_zero]
    · rw [Nat.mul_add_mod, Nat.mod_eq_of_lt h]

theorem halvings_succ_self {t : Nat} {j : Fin d} (h : j.val = t % d) :
    halvings d (t + 1) j = t / d + 1 := by
  unfold halvings
  rcases succ_div_mod (t := t) (Fin.pos j) with ⟨_, e1, e2⟩ | ⟨_, e1, e2⟩
  · rw [e1, e2]; simp
  · rw [e1, e2, if_pos (by omega)]

theorem halvings_succ_ne {t : Nat} {i : Fin d} (h : i.val ≠ t % d) :
    halvings d (t + 1) i = halvings d t i := by
  have hi := i.isLt
  unfold halvings
  rcases succ_div_mod (t := t) (Fin.pos i) with ⟨h1, e1, e2⟩ | ⟨h1, e1, e2⟩
  · rw [e1, e2, if_neg (by omega), if_pos (by omega)]
  · rw [e1, e2]
    congr 1
    by_cases hc : i.val < t % d
    · rw [if_pos hc, if_pos (by omega)]
    · rw [if_neg hc, if_neg (by omega)]

/-- Invariant of the construction from a cube: cell sizes, position of the points in the cell in
terms of the digits not yet used, and agreement on the digits used. -/
structure CubeCell (pts : Nat → Pt α d) (x : Nat → Fin d → α) (s : α) (t : Nat) (seg : List Nat)
    (box : Box α d) : Prop where
  side_eq : ∀ j, side box j = s / 2 ^ halvings d t j
  pos_eq : ∀ i ∈ seg, ∀ j,
    pts i j - box.min j = s / 2 ^ halvings d t j * residual (x i j) (halvings d t j)
  agree : ∀ i ∈ seg, ∀ k ∈ seg, ∀ u < t, zDigit (x i) u = zDigit (x k) u

theorem CubeCell.dim_eq {pts : Nat → Pt α d} {x : Nat → Fin d → α} {s : α} (hs : 0 < s) {t : Nat}
    {seg : List Nat} {box : Box α d} (h : CubeCell pts x s t seg box) {j : Fin d}
    (hj : FirstLongest box j) : j.val = t % d := by
  have hd : 0 < d := Fin.pos j
  have hlt : s / 2 ^ (t / d + 1) < s / 2 ^ (t / d) := by
    refine div_lt_div_of_pos_left hs (by positivity) ?_
    rw [pow_succ]
    have : (0 : α) < 2 ^ (t / d) := by positivity
    linarith
  let k : Fin d := ⟨t % d, Nat.mod_lt _ hd⟩
  have hk : side box k = s / 2 ^ (t / d) := by rw [h.side_eq, halvings_self rfl]
  rcases lt_trichotomy j.val (t % d) with h1 | h1 | h1
  · have h2 : side box j = s / 2 ^ (t / d + 1) := by rw [h.side_eq, halvings, if_pos h1]
    have h3 := hj.1 k
    rw [h2, hk] at h3
    exact absurd hlt (not_lt.2 h3)
  · exact h1
  · have h2 : side box j = s / 2 ^ (t / d) := by
      rw [h.side_eq, halvings, if_neg (by omega), Nat.add_zero]
    have h3 := hj.2 k h1
    rw [h2, hk] at h3
    exact absurd h3 (lt_irrefl _)

theorem zDigit_eq {x : Fin d → α} {t : Nat} {j : Fin d} (hj : j.val = t % d) :
    zDigit x t = digit (x j) (t / d) := by
  have hd : 0 < d := Fin.pos j
  unfold zDigit
  rw [dif_pos hd]
  congr 2
  exact Fin.ext hj.symm

theorem CubeCell.split (hr : C.rule = .midpoint) (hmul : ∀ x, C.N.mulHalf x = x / 2)
    {x : Nat → Fin d → α} {s : α} (hs0 : 0 < s) {t : Nat} {seg : List Nat} {box : Box α d}
    (h : CubeCell C.pts x s t seg box) {sp : Split α d} (hs : splitter C seg box = .ok sp) :
    (∀ i ∈ sp.seg.take sp.pos, zDigit (x i) t = false) ∧
    (∀ i ∈ sp.seg.drop sp.pos, zDigit (x i) t = true) ∧
    CubeCell C.pts x s (t + 1) (sp.seg.take sp.pos) (lowerHalf box sp.dim) ∧
    CubeCell C.pts x s (t + 1) (sp.seg.drop sp.pos) (upperHalf box sp.dim) := by
  obtain ⟨hfl, _, _, hval⟩ := splitter_half hr hmul hs
  have hdim := h.dim_eq hs0 hfl
  have hso := (splitter_ok hs).1
  have hmem := splitter_mem hs
  have hself := halvings_self hdim
  have hsucc := halvings_succ_self hdim
  have hq : (0 : α) < s / 2 ^ (t / d) := by positivity
  have hside := h.side_eq sp.dim
  rw [hself] at hside
  have hqs : s / 2 ^ (t / d + 1) = s / 2 ^ (t / d) / 2 := by rw [pow_succ]; field_simp
  have hv : sp.val = box.min sp.dim + s / 2 ^ (t / d) / 2 := by
    rw [hval, ← hside, side]; ring
  have hL : ∀ i ∈ sp.seg.take sp.pos, residual (x i sp.dim) (t / d) < 1 / 2 := by
    intro i hi
    have h1 := splitter_midpoint hr hs i hi
    have h2 := h.pos_eq i (hmem.1 i hi) sp.dim
    rw [hself] at h2
    rw [hv] at h1
    have h3 : s / 2 ^ (t / d) * residual (x i sp.dim) (t / d) < s / 2 ^ (t / d) * (1 / 2) := by
      rw [← h2]; linarith
    exact lt_of_mul_lt_mul_left h3 hq.le
  have hR : ∀ i ∈ sp.seg.drop sp.pos, 1 / 2 ≤ residual (x i sp.dim) (t / d) := by
    intro i hi
    have h1 := hso.right_ge i hi
    have h2 := h.pos_eq i (hmem.2 i hi) sp.dim
    rw [hself] at h2
    rw [hv] at h1
    have h3 : s / 2 ^ (t / d) * (1 / 2) ≤ s / 2 ^ (t / d) * residual (x i sp.dim) (t / d) := by
      rw [← h2]; linarith
    exact le_of_mul_le_mul_left h3 hq
  have zL : ∀ i ∈ sp.seg.take sp.pos, zDigit (x i) t = false := by
    intro i hi
    rw [zDigit_eq hdim, digit, decide_eq_false_iff_not, not_le]
    exact hL i hi
  have zR : ∀ i ∈ sp.seg.drop sp.pos, zDigit (x i) t = true := by
    intro i hi
    rw [zDigit_eq hdim, digit, decide_eq_true_eq]
    exact hR i hi
  refine ⟨zL, zR, ⟨?_, ?_, ?_⟩, ⟨?_, ?_, ?_⟩⟩
  · intro j
    by_cases hj : j = sp.dim
    · subst hj; rw [side_lowerHalf_self, hside, hsucc, hqs]
    · rw [side_lowerHalf_ne _ hj, h.side_eq,
        halvings_succ_ne (fun hc => hj (Fin.ext (hc.trans hdim.symm)))]
  · intro i hi j
    have h2 := h.pos_eq i (hmem.1 i hi) j
    by_cases hj : j = sp.dim
    · subst hj
      rw [hself] at h2
      rw [hsucc, hqs, residual, if_neg (not_le.2 (hL i hi))]
      show C.pts i sp.dim - box.min sp.dim = _
      rw [h2]; ring
    · rw [halvings_succ_ne (fun hc => hj (Fin.ext (hc.trans hdim.symm)))]
      exact h2
  · intro i hi k hk u hu
    rcases Nat.lt_succ_iff_lt_or_eq.1 hu with hu | rfl
    · exact h.agree i (hmem.1 i hi) k (hmem.1 k hk) u hu
    · rw [zL i hi, zL k hk]
  · intro j
    by_cases hj : j = sp.dim
    · subst hj; rw [side_upperHalf_self, hside, hsucc, hqs]
    · rw [side_upperHalf_ne _ hj, h.side_eq,
        halvings_succ_ne (fun hc => hj (Fin.ext (hc.trans hdim.symm)))]
  · intro i hi j
    have h2 := h.pos_eq i (hmem.2 i hi) j
    by_cases hj : j = sp.dim
    · subst hj
      rw [hself] at h2
      rw [hsucc, hqs, residual, if_pos (hR i hi)]
      have e : (upperHalf box sp.dim).min sp.dim = box.min sp.dim + s / 2 ^ (t / d) / 2 := by
        simp only [upperHalf, if_true]
        rw [← hv, hval]
      rw [e]
      have : C.pts i sp.dim = box.min sp.dim
          + s / 2 ^ (t / d) * residual (x i sp.dim) (t / d) := by rw [← h2]; ring
      rw [this]; ring
    · rw [halvings_succ_ne (fun hc => hj (Fin.ext (hc.trans hdim.symm)))]
      have e : (upperHalf box sp.dim).min j = box.min j := by simp [upperHalf, hj]
      rw [e]
      exact h2
  · intro i hi k hk u hu
    rcases Nat.lt_succ_iff_lt_or_eq.1 hu with hu | rfl
    · exact h.agree i (hmem.2 i hi) k (hmem.2 k hk) u hu
    · rw [zR i hi, zR k hk]

/-- Leaves from left to right are ordered along the curve. -/
theorem Created.zOrder (hr : C.rule = .midpoint) (hmul : ∀ x, C.N.mulHalf x = x / 2)
    {x : Nat → Fin d → α} {s : α} (hs0 : 0 < s) {depth : Int} {o : Nat} {seg : List Nat}
    {box : Box α d} {t : Tree β} {seg' : List Nat} {box' : Box α d}
    (h : Created C depth o seg box t seg' box') (v : List Nat)
    (hv : slice v o (o + seg'.length) = seg') (k : Nat) (hc : CubeCell C.pts x s k seg box) :
    (ranges t).Pairwise fun a b =>
      ∀ i ∈ slice v a.1 a.2, ∀ j ∈ slice v b.1 b.2, ZLess (x i) (x j) := by
  induction h generalizing k with
  | leaf hl => rw [ranges_leaf]; exact List.pairwise_singleton _ _
  | @branch depth o seg box sp l r segL segR boxL boxR hl hs h1 h2 ih1 ih2 =>
    obtain ⟨_, e1, e2, _⟩ := splitter_half hr hmul hs
    obtain ⟨zL, zR, cL, cR⟩ := hc.split hr hmul hs0 hs
    have hmem := splitter_mem hs
    have hlen : segL.length = sp.pos := by rw [h1.perm.length_eq]; exact splitter_take_length hs
    have v1 := slice_left hv
    have v2 := slice_right hv
    have t1 := tiles_flatMap h1.tiles v
    have t2 := tiles_flatMap h2.tiles v
    rw [hlen] at v2
    rw [h1.perm.length_eq.symm, v1] at t1
    rw [h2.perm.length_eq.symm, v2] at t2
    rw [e1] at ih1
    rw [e2] at ih2
    rw [ranges_branch, List.pairwise_append]
    refine ⟨ih1 v1 _ cL, ih2 v2 _ cR, ?_⟩
    intro a ha b hb i hi j hj
    have hiL : i ∈ segL := by rw [← t1]; exact List.mem_flatMap.2 ⟨a, ha, hi⟩
    have hjR : j ∈ segR := by rw [← t2]; exact List.mem_flatMap.2 ⟨b, hb, hj⟩
    have hi' := h1.perm.subset hiL
    have hj' := h2.perm.subset hjR
    exact ⟨k, hc.agree i (hmem.1 i hi') j (hmem.2 j hj'), zL i hi', zR j hj'⟩

end

end Pico
