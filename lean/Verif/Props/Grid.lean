import Verif.Proof.Grid
import Verif.Props.Rounding
import Mathlib.Tactic.IntervalCases
import Mathlib.Algebra.Group.Subgroup.ZPowers.Basic

/-!
# C68: coordinates on a grid

Rounding does no harm if the coordinates are multiples of some unit and not too large: all distances are exact,
and so are the searches.
-/

set_option linter.unusedSectionVars false

namespace Pico

section
variable {K : Type} [Field K] [LinearOrder K] [IsStrictOrderedRing K]

/-- The coordinates are multiples of `c`, at most `B` times `c` in absolute value. -/
def OnGrid {R : Rounding K} {d : Nat} (c : K) (B : Nat) (x : Pt R.F d) : Prop :=
  ∀ j, ∃ m : ℤ, |m| ≤ (B : ℤ) ∧ (x j).1 = m * c

/-- The point as an exact one. -/
def Rounding.exactPt {R : Rounding K} {d : Nat} (x : Pt R.F d) : Pt K d := fun j => (x j).1

namespace Rounding
variable {R : Rounding K} {d : Nat} {c : K} {B L : Nat}

theorem exactSums (hc : 0 < c) (h : R.ExactUpTo c L) :
    ExactSums (fun a : R.F => a.1) (AddSubgroup.zmultiples c) (L * c) where
  le_iff a b := R.le_iff a b
  zero := R.val_zero
  add a b ha hb h0 h0' hl := by
    obtain ⟨m, hm⟩ := AddSubgroup.mem_zmultiples_iff.1 ((AddSubgroup.zmultiples c).add_mem ha hb)
    rw [zsmul_eq_mul] at hm
    rw [R.val_add, ← hm]
    refine h m ?_
    have e0 : 0 ≤ (m : K) * c := by rw [hm]; exact add_nonneg h0 h0'
    rw [← hm] at hl
    have h1 : (m : K) ≤ L := le_of_mul_le_mul_right hl hc
    have h2 : (0 : K) ≤ m := nonneg_of_mul_nonneg_left e0 hc
    have h1' : m ≤ (L : ℤ) := by exact_mod_cast h1
    have h2' : 0 ≤ m := by exact_mod_cast h2
    rw [abs_of_nonneg h2']
    exact h1'
  sub a b ha hb h0 hle hl := by
    obtain ⟨m, hm⟩ := AddSubgroup.mem_zmultiples_iff.1 ((AddSubgroup.zmultiples c).sub_mem ha hb)
    rw [zsmul_eq_mul] at hm
    rw [R.val_sub, ← hm]
    refine h m ?_
    have e0 : 0 ≤ (m : K) * c := by rw [hm]; exact sub_nonneg.2 hle
    have hl' : (m : K) * c ≤ L * c := by rw [hm]; linarith
    have h1 : (m : K) ≤ L := le_of_mul_le_mul_right hl' hc
    have h2 : (0 : K) ≤ m := nonneg_of_mul_nonneg_left e0 hc
    have h1' : m ≤ (L : ℤ) := by exact_mod_cast h1
    have h2' : 0 ≤ m := by exact_mod_cast h2
    rw [abs_of_nonneg h2']
    exact h1'

/-- Differences of coordinates are exact. -/
theorem grid_sub (h : R.ExactUpTo c L) (hB : 2 * B ≤ L) {x y : Pt R.F d} (hx : OnGrid c B x)
    (hy : OnGrid c B y) (j : Fin d) : ∃ m : ℤ, |m| ≤ 2 * (B : ℤ) ∧ (x j - y j).1 = m * c ∧
      (x j).1 - (y j).1 = m * c := by
  obtain ⟨a, ha, ea⟩ := hx j
  obtain ⟨b, hb, eb⟩ := hy j
  have hab : |a - b| ≤ 2 * (B : ℤ) := by
    have := abs_sub a b
    omega
  have e : (x j).1 - (y j).1 = ((a - b : ℤ) : K) * c := by
    rw [ea, eb]
    push_cast
    ring
  refine ⟨a - b, hab, ?_, e⟩
  rw [R.val_sub, e]
  exact h _ (by omega)

theorem sabs_val (a : R.F) : (sabs a).1 = |a.1| := by
  unfold sabs
  split_ifs with h
  · rw [R.val_neg, abs_of_neg h]
  · rw [abs_of_nonneg (not_lt.1 h)]

end Rounding
end

namespace Props

open Spec

section
variable {K : Type} [Field K] [LinearOrder K] [IsStrictOrderedRing K] {R : Rounding K} {d : Nat}
  {N : Num R.F} {pts : Nat → Pt R.F d} {n : Nat} {o : BuildOpts R.F d} {fuel : Nat}
  {T : KdTree R.F d (Branch1 R.F d)} {c : K} {B L : Nat}

theorem exactAt_grid_l1 (hc : 0 < c) (hX : R.ExactUpTo c L) (hL : d * (2 * B) ≤ L)
    (h : KdTree.make (euclideanTag R.F d) (metricL1 R.F d) N pts n o fuel = .ok T)
    (hR : Representable N pts n o) (hn : 0 < n) (hr : o.rule ≠ .midpoint) (q : Pt R.F d)
    (hq : OnGrid c B q) (hp : ∀ i < n, OnGrid c B (pts i)) :
    ExactAt T q ∧
      ∀ i < n, ((metricL1 R.F d).dist q (pts i)).1 = Spec.l1 (R.exactPt q) (R.exactPt (pts i)) := by
  have hterm : ∀ i < n, ∀ j : Fin d, ∃ m : ℤ, 0 ≤ m ∧ m ≤ 2 * (B : ℤ) ∧
      ((metricL1 R.F d).one (q j - pts i j)).1 = m * c ∧ |(q j).1 - (pts i j).1| = m * c := by
    intro i hi j
    have h2 : 2 * B ≤ L := by
      have : 0 < d := j.pos
      nlinarith
    obtain ⟨m, h1, e1, e2⟩ := R.grid_sub hX h2 hq (hp i hi) j
    refine ⟨|m|, abs_nonneg m, h1, ?_, ?_⟩
    · change (sabs (q j - pts i j)).1 = _
      rw [R.sabs_val, e1, abs_mul, abs_of_pos hc]
      push_cast
      rfl
    · rw [e2, abs_mul, abs_of_pos hc]
      push_cast
      rfl
  have hM := axis_l1 (d := d) R.laws
  obtain ⟨_, _, ⟨box, hB⟩, _⟩ := KdTree.make_built h hR hn
  have hg := guard_axis R.laws hM q hB [] [] rfl
  simp only [List.nil_append, List.append_nil] at hg
  obtain ⟨hE, hv⟩ := exactAt_grid (R.exactSums hc hX) h hR hn hr q (fun i _ => hM.dist_eq _ _)
    (fun i _ j => hM.symm _ _)
    (by
      intro i hi j
      obtain ⟨m, _, _, e, _⟩ := hterm i hi j
      rw [AddSubgroup.mem_zmultiples_iff]
      exact ⟨m, by rw [zsmul_eq_mul]; exact e.symm⟩)
    (fun i hi j => hM.nonneg _)
    (by
      intro i hi
      have : ∀ j : Fin d, ((metricL1 R.F d).one (q j - pts i j)).1 ≤ (2 * B : ℕ) * c := by
        intro j
        obtain ⟨m, _, hm, e, _⟩ := hterm i hi j
        rw [e]
        refine mul_le_mul_of_nonneg_right ?_ hc.le
        exact_mod_cast hm
      refine (Finset.sum_le_sum fun j _ => this j).trans ?_
      rw [Finset.sum_const, Finset.card_univ, Fintype.card_fin, nsmul_eq_mul, ← mul_assoc]
      refine mul_le_mul_of_nonneg_right ?_ hc.le
      exact_mod_cast hL)
    hg
  refine ⟨hE, fun i hi => ?_⟩
  rw [hv i hi]
  unfold Spec.l1 Rounding.exactPt
  refine Finset.sum_congr rfl fun j _ => ?_
  obtain ⟨m, _, _, e1, e2⟩ := hterm i hi j
  rw [e1, e2]

theorem exactAt_grid_l2 (hc : 0 < c) (hX : R.ExactUpTo c L) (hX2 : R.ExactUpTo (c ^ 2) L)
    (hL : d * (2 * B) ^ 2 ≤ L)
    (h : KdTree.make (euclideanTag R.F d) (metricL2Sq R.F d) N pts n o fuel = .ok T)
    (hR : Representable N pts n o) (hn : 0 < n) (hr : o.rule ≠ .midpoint) (q : Pt R.F d)
    (hq : OnGrid c B q) (hp : ∀ i < n, OnGrid c B (pts i)) :
    ExactAt T q ∧
      ∀ i < n, ((metricL2Sq R.F d).dist q (pts i)).1 = Spec.l2Sq (R.exactPt q) (R.exactPt (pts i)) := by
  have hterm : ∀ i < n, ∀ j : Fin d, ∃ m : ℤ, 0 ≤ m ∧ m ≤ (2 * (B : ℤ)) ^ 2 ∧
      ((metricL2Sq R.F d).one (q j - pts i j)).1 = m * c ^ 2 ∧
      ((q j).1 - (pts i j).1) ^ 2 = m * c ^ 2 := by
    intro i hi j
    have hd : 0 < d := j.pos
    have h2 : (2 * B) ^ 2 ≤ L := by nlinarith
    have h3 : 2 * B ≤ L := by nlinarith
    obtain ⟨m, h1, e1, e2⟩ := R.grid_sub hX h3 hq (hp i hi) j
    have hm2 : m ^ 2 ≤ (2 * (B : ℤ)) ^ 2 := sq_le_sq' (by have := abs_le.1 h1; omega) (abs_le.1 h1).2
    refine ⟨m ^ 2, sq_nonneg m, hm2, ?_, ?_⟩
    · change ((q j - pts i j) * (q j - pts i j)).1 = _
      rw [R.val_mul, e1]
      have e : (m : K) * c * (m * c) = ((m ^ 2 : ℤ) : K) * c ^ 2 := by push_cast; ring
      rw [e]
      refine hX2 _ ?_
      rw [abs_of_nonneg (sq_nonneg m)]
      refine hm2.trans ?_
      exact_mod_cast h2
    · rw [e2]
      push_cast
      ring
  have hc2 : 0 < c ^ 2 := by positivity
  have hM := axis_l2Sq (d := d) R.laws R.squareLaws
  obtain ⟨_, _, ⟨box, hB⟩, _⟩ := KdTree.make_built h hR hn
  have hg := guard_axis R.laws hM q hB [] [] rfl
  simp only [List.nil_append, List.append_nil] at hg
  obtain ⟨hE, hv⟩ := exactAt_grid (R.exactSums hc2 hX2) h hR hn hr q (fun i _ => hM.dist_eq _ _)
    (fun i _ j => hM.symm _ _)
    (by
      intro i hi j
      obtain ⟨m, _, _, e, _⟩ := hterm i hi j
      rw [AddSubgroup.mem_zmultiples_iff]
      exact ⟨m, by rw [zsmul_eq_mul]; exact e.symm⟩)
    (fun i hi j => hM.nonneg _)
    (by
      intro i hi
      have : ∀ j : Fin d, ((metricL2Sq R.F d).one (q j - pts i j)).1 ≤ ((2 * B) ^ 2 : ℕ) * c ^ 2 := by
        intro j
        obtain ⟨m, _, hm, e, _⟩ := hterm i hi j
        rw [e]
        refine mul_le_mul_of_nonneg_right ?_ hc2.le
        exact_mod_cast hm
      refine (Finset.sum_le_sum fun j _ => this j).trans ?_
      rw [Finset.sum_const, Finset.card_univ, Fintype.card_fin, nsmul_eq_mul, ← mul_assoc]
      refine mul_le_mul_of_nonneg_right ?_ hc2.le
      exact_mod_cast hL)
    hg
  refine ⟨hE, fun i hi => ?_⟩
  rw [hv i hi]
  unfold Spec.l2Sq Rounding.exactPt
  refine Finset.sum_congr rfl fun j _ => ?_
  obtain ⟨m, _, _, e1, e2⟩ := hterm i hi j
  rw [e1, e2]

/-- C68 for `metric_l1`: median and sliding midpoint rule, any stop condition. `d * 2B` multiples of the
unit have to be representable. -/
theorem c68_l1 (hc : 0 < c) (hX : R.ExactUpTo c L) (hL : d * (2 * B) ≤ L)
    (h : KdTree.make (euclideanTag R.F d) (metricL1 R.F d) N pts n o fuel = .ok T)
    (hR : Representable N pts n o) (hn : 0 < n) (hr : o.rule ≠ .midpoint) (q : Pt R.F d)
    (hq : OnGrid c B q) (hp : ∀ i < n, OnGrid c B (pts i))
    (hbig : ∀ i < n, Spec.l1 (R.exactPt q) (R.exactPt (pts i)) < N.big.1) :
    ∃ dist : Nat → R.F, (∀ i < n, (dist i).1 = Spec.l1 (R.exactPt q) (R.exactPt (pts i))) ∧
      (∀ nn, IsNN n dist (T.searchNn q nn)) ∧
      (∀ k prior, 0 < k → ∃ out, T.searchKnn q k prior = .ok out ∧ IsKnn n k dist out) ∧
      ∀ sorter r prior sort, IsRadius n dist r (T.searchRadius sorter q r prior sort) := by
  obtain ⟨hE, hv⟩ := exactAt_grid_l1 hc hX hL h hR hn hr q hq hp
  have hb : ∀ i < n, (metricL1 R.F d).dist q (pts i) < N.big := by
    intro i hi
    rw [R.lt_iff, hv i hi]
    exact hbig i hi
  refine ⟨fun i => (metricL1 R.F d).dist q (pts i), hv, ?_, ?_, ?_⟩
  · intro nn; exact nn_of_exact h hE hn rfl hb nn
  · intro k prior hk
    obtain ⟨out, h1, h2, _⟩ := knn_of_exact h hE hn rfl hb k hk prior
    exact ⟨out, h1, h2⟩
  · intro sorter r prior sort
    exact (radius_of_exact h hE rfl sorter r prior sort).1

/-- C68 for `metric_l2_squared`. -/
theorem c68_l2 (hc : 0 < c) (hX : R.ExactUpTo c L) (hX2 : R.ExactUpTo (c ^ 2) L)
    (hL : d * (2 * B) ^ 2 ≤ L)
    (h : KdTree.make (euclideanTag R.F d) (metricL2Sq R.F d) N pts n o fuel = .ok T)
    (hR : Representable N pts n o) (hn : 0 < n) (hr : o.rule ≠ .midpoint) (q : Pt R.F d)
    (hq : OnGrid c B q) (hp : ∀ i < n, OnGrid c B (pts i))
    (hbig : ∀ i < n, Spec.l2Sq (R.exactPt q) (R.exactPt (pts i)) < N.big.1) :
    ∃ dist : Nat → R.F, (∀ i < n, (dist i).1 = Spec.l2Sq (R.exactPt q) (R.exactPt (pts i))) ∧
      (∀ nn, IsNN n dist (T.searchNn q nn)) ∧
      (∀ k prior, 0 < k → ∃ out, T.searchKnn q k prior = .ok out ∧ IsKnn n k dist out) ∧
      ∀ sorter r prior sort, IsRadius n dist r (T.searchRadius sorter q r prior sort) := by
  obtain ⟨hE, hv⟩ := exactAt_grid_l2 hc hX hX2 hL h hR hn hr q hq hp
  have hb : ∀ i < n, (metricL2Sq R.F d).dist q (pts i) < N.big := by
    intro i hi
    rw [R.lt_iff, hv i hi]
    exact hbig i hi
  refine ⟨fun i => (metricL2Sq R.F d).dist q (pts i), hv, ?_, ?_, ?_⟩
  · intro nn; exact nn_of_exact h hE hn rfl hb nn
  · intro k prior hk
    obtain ⟨out, h1, h2, _⟩ := knn_of_exact h hE hn rfl hb k hk prior
    exact ⟨out, h1, h2⟩
  · intro sorter r prior sort
    exact (radius_of_exact h hE rfl sorter r prior sort).1

end

/-- C68 for floating point numbers with `p + 1` significant bits and gradual underflow at
`2^e` (`float`: `p = 23`, `e = -149`, `double`: `p = 52`, `e = -1074`): coordinates are multiples of `2^k` of at
most `B` units, squares of the unit do not underflow, and `d (2B)^2 ≤ 2^(p+1)`. -/
theorem c68_ieee {p d B fuel n : Nat} {e k : ℤ} {N : Num (ieee p e).F} {pts : Nat → Pt (ieee p e).F d}
    {o : BuildOpts (ieee p e).F d} {T : KdTree (ieee p e).F d (Branch1 (ieee p e).F d)}
    (hk : e ≤ k) (hk2 : e ≤ 2 * k) (hL : d * (2 * B) ^ 2 ≤ 2 ^ (p + 1))
    (h : KdTree.make (euclideanTag (ieee p e).F d) (metricL2Sq (ieee p e).F d) N pts n o fuel = .ok T)
    (hR : Representable N pts n o) (hn : 0 < n) (hr : o.rule ≠ .midpoint) (q : Pt (ieee p e).F d)
    (hq : OnGrid (2 ^ k) B q) (hp : ∀ i < n, OnGrid (2 ^ k) B (pts i))
    (hbig : ∀ i < n, Spec.l2Sq ((ieee p e).exactPt q) ((ieee p e).exactPt (pts i)) < N.big.1) :
    ∃ dist : Nat → (ieee p e).F,
      (∀ i < n, (dist i).1 = Spec.l2Sq ((ieee p e).exactPt q) ((ieee p e).exactPt (pts i))) ∧
      (∀ nn, IsNN n dist (T.searchNn q nn)) ∧
      (∀ k prior, 0 < k → ∃ out, T.searchKnn q k prior = .ok out ∧ IsKnn n k dist out) ∧
      ∀ sorter r prior sort, IsRadius n dist r (T.searchRadius sorter q r prior sort) := by
  refine c68_l2 (by positivity) (ieee_exactUpTo p e hk) ?_ hL h hR hn hr q hq hp hbig
  have e2 : ((2 : ℚ) ^ k) ^ 2 = 2 ^ (2 * k) := by rw [← zpow_natCast, ← zpow_mul]; congr 1; push_cast; ring
  rw [e2]
  exact ieee_exactUpTo p e hk2

/-- Five `float` points with integer coordinates, two of them equal. -/
def grid5 : Nat → Pt F32 2
  | 0 => ![f32 0, f32 0]
  | 1 => ![f32 400, f32 (-100)]
  | 2 => ![f32 3, f32 999]
  | 3 => ![f32 3, f32 999]
  | _ => ![f32 (-1000), f32 2]

theorem onGrid_f32 {a b : ℤ} (ha : roundTiny 23 (-149) a = a) (hb : roundTiny 23 (-149) b = b) (ha' : |a| ≤ 1000)
    (hb' : |b| ≤ 1000) : OnGrid ((2 : ℚ) ^ (0 : ℤ)) 1000 (![f32 a, f32 b] : Pt F32 2) := by
  intro j
  fin_cases j
  · exact ⟨a, by exact_mod_cast ha', (f32_exact a ha).trans (by simp)⟩
  · exact ⟨b, by exact_mod_cast hb', (f32_exact b hb).trans (by simp)⟩

theorem grid5_onGrid : ∀ i < 5, OnGrid ((2 : ℚ) ^ (0 : ℤ)) 1000 (grid5 i) := by
  intro i hi
  interval_cases i <;> exact onGrid_f32 (by decide +kernel) (by decide +kernel) (by decide) (by decide)

theorem grid5_representable : Representable f32Num grid5 5 (Ref.optsSliding F32 2) where
  num := by decide +kernel
  points i hi j := by
    have : ∀ i < 5, ∀ j, f32Num.low ≤ grid5 i j ∧ grid5 i j ≤ f32Num.big := by decide +kernel
    exact this i hi j
  bounds := trivial
  mid h := by simp [Ref.optsSliding] at h

/-- Coordinates of up to 1000 in the plane: `2 * 2000^2 ≤ 2^24`, all searches are exact. -/
example : ∃ T dist, KdTree.make (euclideanTag F32 2) (metricL2Sq F32 2) f32Num grid5 5 (Ref.optsSliding F32 2) 10
      = .ok T ∧ IsNN 5 dist (T.searchNn ![f32 300, f32 (-777)] ⟨0, 0⟩) ∧ (dist 1).1 = 468329 := by
  obtain ⟨T, h1, -⟩ := Outcome.exists_of_check (x := KdTree.make (euclideanTag F32 2) (metricL2Sq F32 2)
    f32Num grid5 5 (Ref.optsSliding F32 2) 10) (p := fun _ => true) (by decide +kernel)
  obtain ⟨dist, hd, h3, _⟩ := c68_ieee (B := 1000) (k := 0) (by decide) (by decide) (by decide) h1 grid5_representable (by decide)
    (by decide) ![f32 300, f32 (-777)]
    (onGrid_f32 (by decide +kernel) (by decide +kernel) (by decide) (by decide)) grid5_onGrid
    (by decide +kernel)
  refine ⟨T, dist, h1, h3 _, ?_⟩
  rw [hd 1 (by decide)]
  decide +kernel

end Props

end Pico
