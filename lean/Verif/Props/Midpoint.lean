import Verif.Proof.Midpoint
import Verif.Props.Builder
import Mathlib.Algebra.BigOperators.Group.Finset.Basic
import Mathlib.Tactic.NormNum

/-!
# C23, C42, C43: the midpoint rule
-/

set_option linter.unusedSectionVars false

namespace Pico.Props

open Pico Spec

/-! ## C23 -/

section
variable {α : Type} [LinearOrder α] [Add α] [Sub α] {d : Nat} {β : Type} {N : Num α}
  {pts : Nat → Pt α d} {n : Nat} {o : BuildOpts α d}

/-- C23 is false: with more than `m` coincident points the construction with the midpoint rule and
`max_leaf_size_t(m)` runs out of every amount of fuel (and does not stop with undefined behaviour
either), i.e. it recurses forever. -/
theorem c23_false (tag : SpaceTag α d β) (M : Metric α d) {a b : α} (hS : SplitSafe N a b)
    (hd : 0 < d) (hn : 0 < n) (hr : o.rule = .midpoint) {m : Nat} (hs : o.stop = .maxLeafSize m)
    (hm : m < 2 ^ (o.indexBits - 1)) (hp : ∀ i < n, ∀ j, a ≤ pts i j ∧ pts i j ≤ b)
    (hN : N.low ≤ b ∧ a ≤ N.big)
    (hb : ∀ mn mx, o.bounds = .given mn mx →
      ∀ j, (a ≤ mn j ∧ mn j ≤ b) ∧ (a ≤ mx j ∧ mx j ≤ b))
    (p : Pt α d) (hdup : m < (List.range n).countP fun i => decide (pts i = p)) (fuel : Nat) :
    KdTree.make tag M N pts n o fuel = .oof := by
  have hub := createNode_midpoint_ne_ub (C := KdTree.cfg tag N pts o) hS hd hr fuel 0 0 (List.range n)
    (boxFromBounds N pts n o.bounds) (boxFromBounds_within hn hN hp hb)
    (fun i hi => hp i (List.mem_range.1 hi))
  have hok : ∀ T, KdTree.make tag M N pts n o fuel ≠ .ok T := by
    intro T h
    obtain ⟨box, hc⟩ := created_of_make h
    have := not_created_coincident (C := KdTree.cfg tag N pts o) hr hs hm p hc
    exact absurd hdup (not_lt.2 this)
  cases hmk : KdTree.make tag M N pts n o fuel with
  | oof => rfl
  | ok T => exact absurd hmk (hok T)
  | ub =>
    exfalso
    apply hub
    unfold KdTree.make buildTree at hmk
    cases e : createNode (KdTree.cfg tag N pts o) fuel 0 0 (List.range n)
        (boxFromBounds N pts n o.bounds) with
    | ub => rfl
    | oof =>
      simp only [KdTree.cfg] at e hmk
      simp [e, Outcome.bind] at hmk
    | ok res =>
      simp only [KdTree.cfg] at e hmk
      simp [e, Outcome.bind] at hmk

end

section
variable {α : Type} [Field α] [LinearOrder α] [IsStrictOrderedRing α] {d : Nat} {β : Type}
  {tag : SpaceTag α d β} {M : Metric α d} {N : Num α} {pts : Nat → Pt α d} {n : Nat}
  {o : BuildOpts α d} {fuel : Nat} {T : KdTree α d β}

/-- C23 (partial: exact Archimedean arithmetic, start box containing the points, no `m + 1` points
coincide; missing: sets with more than `m` coincident points, for which `c23_false` shows the
opposite): the construction finishes. -/
theorem c23_midpoint_partial [Archimedean α] (tag : SpaceTag α d β) (M : Metric α d)
    (hmul : ∀ x, N.mulHalf x = x / 2) (hlow : N.low ≤ 0) (hr : o.rule = .midpoint) {m : Nat}
    (hs : o.stop = .maxLeafSize m) (hm : m < 2 ^ (o.indexBits - 1))
    (hbox : ∀ i < n, (boxFromBounds N pts n o.bounds).Mem (pts i))
    (hdup : ∀ p, (List.range n).countP (fun i => decide (pts i = p)) ≤ m) :
    ∃ fuel T, ∀ f ≥ fuel, KdTree.make tag M N pts n o f = .ok T := by
  obtain ⟨ε, hε, hgap⟩ := exists_gap pts n
  have hex : ∀ j, ∃ e : Nat, side (boxFromBounds N pts n o.bounds) j < ε * 2 ^ e := by
    intro j
    obtain ⟨e, he⟩ := pow_unbounded_of_one_lt (side (boxFromBounds N pts n o.bounds) j / ε)
      (one_lt_two (α := α))
    exact ⟨e, by rw [div_lt_iff₀ hε] at he; linarith [mul_comm ε ((2 : α) ^ e)]⟩
  choose e he using hex
  obtain ⟨t, s, bx, hc⟩ := created_exists_midpoint (C := KdTree.cfg tag N pts o) hr hmul hlow hs hm hε
    hgap _ e 0 0 (List.range n) (boxFromBounds N pts n o.bounds) rfl he
    (fun i hi => List.mem_range.1 hi) (fun i hi => hbox i (List.mem_range.1 hi)) hdup
  exact make_of_created hc

/-! ## C42 -/

theorem make_rootBox (h : KdTree.make tag M N pts n o fuel = .ok T) :
    T.data.rootBox = boxFromBounds N pts n o.bounds := by
  unfold KdTree.make at h
  cases hc : buildTree (KdTree.cfg tag N pts o) n o.bounds fuel with
  | ub => simp [hc, Outcome.bind] at h
  | oof => simp [hc, Outcome.bind] at h
  | ok D =>
    simp only [hc, Outcome.bind, Outcome.ok.injEq] at h
    subst h
    exact (buildTree_created hc).1

theorem indices_slice (h : KdTree.make tag M N pts n o fuel = .ok T) :
    slice T.data.indices 0 (0 + T.data.indices.length) = T.data.indices := by
  simp [slice]

/-- C42: started from a box with equal sides that contains the points, the tree subdivides the box by
halving the first of the longest sides of every cell, no cell has a side more than twice as long
as another, and every point lies in the cell of its leaf.  `hsd` holds for both node types by
definition. -/
theorem c42_cells (h : KdTree.make tag M N pts n o fuel = .ok T)
    (hsd : ∀ bl br dim, tag.splitDim (tag.setBranch bl br dim) = dim)
    (hmul : ∀ x, N.mulHalf x = x / 2) (hr : o.rule = .midpoint)
    (hbox : ∀ i < n, T.data.rootBox.Mem (pts i)) {s : α} (hs : 0 ≤ s)
    (hcube : ∀ j, side T.data.rootBox j = s) :
    Subdivides tag.splitDim pts T.data.indices Aspect2 FirstLongest T.data.rootBox T.data.root := by
  obtain ⟨box, hc⟩ := created_of_make h
  have hb := make_rootBox h
  rw [← hb] at hc
  exact Pico.Subdivides.mono (fun b => TwoSides.aspect)
    (hc.subdivides hr hmul hsd (P := TwoSides) (fun b j h1 h2 => h1.half h2) T.data.indices
      (indices_slice h) (fun i hi => hbox i (List.mem_range.1 hi))
      ⟨s, hs, fun j => Or.inl (hcube j)⟩)

/-! ## C43 -/

/-- C43: started from a cube, points in leaves further left come strictly earlier on the Z/N-order
curve of the coordinates normalised to the cube. -/
theorem c43_z_order (h : KdTree.make tag M N pts n o fuel = .ok T)
    (hmul : ∀ x, N.mulHalf x = x / 2) (hr : o.rule = .midpoint) {s : α} (hs : 0 < s)
    (hcube : ∀ j, side T.data.rootBox j = s) :
    (ranges T.data.root).Pairwise fun a b =>
      ∀ i ∈ slice T.data.indices a.1 a.2, ∀ k ∈ slice T.data.indices b.1 b.2,
        ZLess (fun j => (pts i j - T.data.rootBox.min j) / s)
          (fun j => (pts k j - T.data.rootBox.min j) / s) := by
  obtain ⟨box, hc⟩ := created_of_make h
  have hb := make_rootBox h
  rw [← hb] at hc
  refine hc.zOrder (x := fun i j => (pts i j - T.data.rootBox.min j) / s) hr hmul hs T.data.indices
    (indices_slice h) 0 ⟨?_, ?_, ?_⟩
  · intro j; rw [hcube j]; simp [halvings]
  · intro i _ j
    have : halvings d 0 j = 0 := by simp [halvings]
    rw [this, residual, pow_zero, div_one]
    show pts i j - _ = _
    field_simp
  · intro i _ k _ u hu; exact absurd hu (Nat.not_lt_zero _)

/-- The digits used by C43 are the binary digits: `x` is the sum of the first `k` digits at their
places plus a remainder below one unit of the last place. -/
theorem c43_digits (x : α) (h0 : 0 ≤ x) (h1 : x ≤ 1) (k : Nat) :
    x = (∑ i ∈ Finset.range k, (if digit x i then 1 else 0) / 2 ^ (i + 1)) + residual x k / 2 ^ k ∧
      0 ≤ residual x k ∧ residual x k ≤ 1 := by
  induction k with
  | zero => simpa [residual] using ⟨h0, h1⟩
  | succ k ih =>
    obtain ⟨e, r0, r1⟩ := ih
    rw [Finset.sum_range_succ, residual]
    have hp : (0 : α) < 2 ^ k := by positivity
    by_cases hc : 1 / 2 ≤ residual x k
    · have hd : digit x k = true := by simpa [digit] using hc
      rw [if_pos hc, hd]
      refine ⟨?_, by linarith, by linarith⟩
      have e2 : (1 : α) / 2 ^ (k + 1) + (2 * residual x k - 1) / 2 ^ (k + 1) = residual x k / 2 ^ k := by
        rw [pow_succ]; field_simp; ring
      simp only [if_true]
      rw [add_assoc, e2]
      exact e
    · have hd : digit x k = false := by simpa [digit] using hc
      rw [if_neg hc, hd]
      push Not at hc
      refine ⟨?_, by linarith, by linarith⟩
      have e2 : (0 : α) / 2 ^ (k + 1) + 2 * residual x k / 2 ^ (k + 1) = residual x k / 2 ^ k := by
        rw [pow_succ]; field_simp; ring
      simp only [Bool.false_eq_true, if_false]
      rw [add_assoc, e2]
      exact e

end

/-! ## Examples -/

section Examples

/-- Two equal points and a third one. -/
def dupPts : Nat → Pt Rat 1
  | 0 => ![1 / 2]
  | 1 => ![1 / 2]
  | _ => ![1]

/-- Midpoint rule with leaves of at most `m` points. -/
def optsMidSize (m : Nat) (d : Nat) : BuildOpts Rat d :=
  ⟨Ref.std, .midpoint, .maxLeafSize m, .fromSpace, 32⟩

/-- C23: two coincident points and leaves of one point never finish. -/
example (fuel : Nat) : KdTree.make (euclideanTag Rat 1) (metricL1 Rat 1) Ref.ratNum dupPts 3
    (optsMidSize 1 1) fuel = .oof :=
  c23_false _ _ (a := 0) (b := 1)
    (splitSafe_field (fun x => by simp [Ref.ratNum]; ring) (fun x => by simp [Ref.ratNum])
      (by norm_num [Ref.ratNum]))
    (by decide) (by decide) rfl (m := 1) rfl (by decide) (by decide +kernel)
    (by norm_num [Ref.ratNum]) (by intro mn mx h; simp [optsMidSize] at h) ![1 / 2]
    (by decide +kernel) fuel

/-- C23: with leaves of two points the same set is fine. -/
example : ∃ fuel T, ∀ f ≥ fuel, KdTree.make (euclideanTag Rat 1) (metricL1 Rat 1) Ref.ratNum dupPts 3
    (optsMidSize 2 1) f = .ok T := by
  refine c23_midpoint_partial _ _ (fun x => by simp [Ref.ratNum]; ring) (by norm_num [Ref.ratNum]) rfl
    (m := 2) rfl (by decide) (boxFromBounds_fromSpace_mem _ _ _) (fun p => ?_)
  have h : List.range 3 = [0, 1, 2] := rfl
  have h01 : dupPts 0 ≠ dupPts 2 := by decide +kernel
  have h11 : dupPts 1 ≠ dupPts 2 := by decide +kernel
  rw [h]
  by_cases h2 : dupPts 2 = p
  · subst h2
    simp [h01, h11]
  · rw [show [0, 1, 2] = [0, 1] ++ [2] from rfl, List.countP_append]
    have := List.countP_le_length (p := fun i => decide (dupPts i = p)) (l := [0, 1])
    simp [h2] at this ⊢
    omega

/-- Five points in the unit square. -/
def squarePts : Nat → Pt Rat 2
  | 0 => ![0, 0]
  | 1 => ![3 / 4, 1 / 4]
  | 2 => ![1 / 4, 3 / 4]
  | 3 => ![1, 1]
  | _ => ![5 / 8, 1 / 8]

/-- C42, C43: a tree over the unit square, with its leaves (indices in curve order). -/
theorem square_example : ∃ T, KdTree.make (euclideanTag Rat 2) (metricL1 Rat 2) Ref.ratNum squarePts 5
    (optsMidSize 1 2) 10 = .ok T ∧ T.data.indices = [0, 2, 4, 1, 3] ∧
    ranges T.data.root = [(0, 1), (1, 2), (2, 3), (3, 4), (4, 5)] ∧
    (∀ j, side T.data.rootBox j = 1) ∧ ∀ i < 5, ∀ j,
      T.data.rootBox.min j ≤ squarePts i j ∧ squarePts i j ≤ T.data.rootBox.max j := by
  obtain ⟨T, h, hp⟩ := Outcome.exists_of_check
    (x := KdTree.make (euclideanTag Rat 2) (metricL1 Rat 2) Ref.ratNum squarePts 5
      (optsMidSize 1 2) 10)
    (p := fun T => decide (T.data.indices = [0, 2, 4, 1, 3]) &&
      decide (ranges T.data.root = [(0, 1), (1, 2), (2, 3), (3, 4), (4, 5)]) &&
      decide (∀ j, T.data.rootBox.max j - T.data.rootBox.min j = 1))
    (by decide +kernel)
  simp only [Bool.and_eq_true, decide_eq_true_eq] at hp
  refine ⟨T, h, hp.1.1, hp.1.2, hp.2, ?_⟩
  rw [make_rootBox h]
  exact boxFromBounds_fromSpace_mem _ _ _

example : ∃ T, KdTree.make (euclideanTag Rat 2) (metricL1 Rat 2) Ref.ratNum squarePts 5
    (optsMidSize 1 2) 10 = .ok T ∧
    Subdivides (euclideanTag Rat 2).splitDim squarePts T.data.indices Aspect2 FirstLongest
      T.data.rootBox T.data.root ∧
    (ranges T.data.root).Pairwise fun a b =>
      ∀ i ∈ slice T.data.indices a.1 a.2, ∀ k ∈ slice T.data.indices b.1 b.2,
        ZLess (fun j => (squarePts i j - T.data.rootBox.min j) / 1)
          (fun j => (squarePts k j - T.data.rootBox.min j) / 1) := by
  obtain ⟨T, h, _, _, hside, hmem⟩ := square_example
  exact ⟨T, h, c42_cells h (fun _ _ _ => rfl) (fun x => by simp [Ref.ratNum]; ring) rfl hmem
    zero_le_one hside,
    c43_z_order h (fun x => by simp [Ref.ratNum]; ring) rfl zero_lt_one hside⟩

end Examples

end Pico.Props
