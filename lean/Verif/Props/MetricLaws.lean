import Verif.Props.Infinity
import Mathlib.Tactic.Ring
import Mathlib.Tactic.Linarith
import Mathlib.Tactic.FinCases

/-!
# C41: laws of the distance functions

Exact arithmetic.  The laws are stated for the code's distance functions themselves.
-/

set_option linter.unusedSectionVars false

namespace Pico.Props

open Pico

section
variable {α : Type} [CommRing α] [LinearOrder α] [IsStrictOrderedRing α] {d : Nat}

/-- The first three laws. -/
structure PreMetric {X : Type} (dist : X → X → α) (same : X → X → Prop) : Prop where
  nonneg : ∀ x y, 0 ≤ dist x y
  comm : ∀ x y, dist x y = dist y x
  zero : ∀ x y, dist x y = 0 ↔ same x y

/-- All four laws. -/
structure FullMetric {X : Type} (dist : X → X → α) (same : X → X → Prop) : Prop
    extends PreMetric dist same where
  triangle : ∀ x y z, dist x z ≤ dist x y + dist y z

/-- C41 for `metric_l1`. -/
theorem c41_l1 : FullMetric (metricL1 α d).dist (· = ·) := by
  have e : ∀ x y : Pt α d, (metricL1 α d).dist x y = ∑ j, |x j - y j| := by
    intro x y
    simp only [metricL1, loopSum_eq, r1Distance, sabs_eq]
  refine ⟨⟨?_, ?_, ?_⟩, ?_⟩
  · intro x y; rw [e]; exact Finset.sum_nonneg fun j _ => abs_nonneg _
  · intro x y; rw [e, e]; exact Finset.sum_congr rfl fun j _ => abs_sub_comm _ _
  · intro x y
    rw [e, Finset.sum_eq_zero_iff_of_nonneg (fun j _ => abs_nonneg _)]
    constructor
    · intro h; funext j; exact sub_eq_zero.1 (abs_eq_zero.1 (h j (Finset.mem_univ j)))
    · rintro rfl j _; simp
  · intro x y z
    rw [e, e, e, ← Finset.sum_add_distrib]
    exact Finset.sum_le_sum fun j _ => abs_sub_le _ _ _

/-- C41 for `metric_lpinf`. -/
theorem c41_lpinf (hd : 0 < d) : FullMetric (metricLPInf α d).dist (· = ·) := by
  have e : ∀ x y : Pt α d, IsMaxDiff x y ((metricLPInf α d).dist x y) := fun x y => c12_distance hd x y
  refine ⟨⟨?_, ?_, ?_⟩, ?_⟩
  · intro x y; exact (abs_nonneg _).trans ((e x y).1 ⟨0, hd⟩)
  · have le : ∀ x y : Pt α d, (metricLPInf α d).dist x y ≤ (metricLPInf α d).dist y x := by
      intro x y
      obtain ⟨j, hj⟩ := (e x y).2
      rw [← hj, abs_sub_comm]
      exact (e y x).1 j
    intro x y
    exact le_antisymm (le x y) (le y x)
  · intro x y
    constructor
    · intro h
      funext j
      have := (e x y).1 j
      rw [h] at this
      exact sub_eq_zero.1 (abs_eq_zero.1 (le_antisymm this (abs_nonneg _)))
    · rintro rfl
      obtain ⟨j, hj⟩ := (e x x).2
      rw [← hj]; simp
  · intro x y z
    obtain ⟨j, hj⟩ := (e x z).2
    rw [← hj]
    exact (abs_sub_le _ (y j) _).trans (add_le_add ((e x y).1 j) ((e y z).1 j))

/-- C41 for `metric_l2_squared` (no triangle inequality: it is a squared distance). -/
theorem c41_l2_squared : PreMetric (metricL2Sq α d).dist (· = ·) := by
  have e : ∀ x y : Pt α d, (metricL2Sq α d).dist x y = ∑ j, (x j - y j) * (x j - y j) := by
    intro x y
    simp only [metricL2Sq, loopSum_eq, squaredR1Distance, squared]
  refine ⟨?_, ?_, ?_⟩
  · intro x y; rw [e]; exact Finset.sum_nonneg fun j _ => mul_self_nonneg _
  · intro x y; rw [e, e]; exact Finset.sum_congr rfl fun j _ => by ring
  · intro x y
    rw [e, Finset.sum_eq_zero_iff_of_nonneg (fun j _ => mul_self_nonneg _)]
    constructor
    · intro h; funext j; exact sub_eq_zero.1 (mul_self_eq_zero.1 (h j (Finset.mem_univ j)))
    · rintro rfl j _; simp

/-- The unit interval as the set of circle coordinates. -/
def Unit01 (α : Type) [LinearOrder α] [Zero α] [One α] := { x : α // 0 ≤ x ∧ x ≤ 1 }

/-- The same place on the circle. -/
def SameAngle (x y : Unit01 α) : Prop := x.1 = y.1 ∨ (x.1 = 0 ∧ y.1 = 1) ∨ (x.1 = 1 ∧ y.1 = 0)

theorem circle_full : FullMetric (fun x y : Unit01 α => s1Distance x.1 y.1) SameAngle := by
  have e : ∀ x y : Unit01 α, s1Distance x.1 y.1 = min |x.1 - y.1| (1 - |x.1 - y.1|) :=
    fun x y => s1Distance_eq _ _
  have le1 : ∀ x y : Unit01 α, |x.1 - y.1| ≤ 1 := by
    intro x y
    rw [abs_le]
    obtain ⟨x, h1, h2⟩ := x
    obtain ⟨y, h3, h4⟩ := y
    exact ⟨by linarith, by linarith⟩
  refine ⟨⟨?_, ?_, ?_⟩, ?_⟩
  · intro x y
    rw [e]
    exact le_min (abs_nonneg _) (by have := le1 x y; linarith)
  · intro x y; rw [e, e, abs_sub_comm]
  · intro x y
    rw [e]
    have h1 := le1 x y
    have h0 := abs_nonneg (x.1 - y.1)
    obtain ⟨x, hx⟩ := x
    obtain ⟨y, hy⟩ := y
    simp only [SameAngle] at *
    constructor
    · intro h
      rcases min_choice |x - y| (1 - |x - y|) with hc | hc
      · left
        rw [hc] at h
        exact sub_eq_zero.1 (abs_eq_zero.1 h)
      · right
        rw [hc] at h
        have h2 : |x - y| = 1 := by linarith
        rcases abs_cases (x - y) with ⟨h3, _⟩ | ⟨h3, _⟩
        · right; constructor <;> linarith
        · left; constructor <;> linarith
    · rintro (rfl | ⟨rfl, rfl⟩ | ⟨rfl, rfl⟩)
      · simp
      · simp
      · simp
  · intro x y z
    rw [e, e, e]
    have h1 := le1 x y
    have h2 := le1 y z
    have h3 := abs_sub_le x.1 y.1 z.1
    have h4 : |x.1 - y.1| ≤ |x.1 - z.1| + |y.1 - z.1| := by
      have := abs_sub_le x.1 z.1 y.1
      rwa [abs_sub_comm z.1 y.1] at this
    have h5 : |y.1 - z.1| ≤ |x.1 - y.1| + |x.1 - z.1| := by
      have := abs_sub_le y.1 x.1 z.1
      rwa [abs_sub_comm y.1 x.1] at this
    have h6 : |x.1 - y.1| + |y.1 - z.1| + |x.1 - z.1| ≤ 2 := by
      obtain ⟨x, hx⟩ := x
      obtain ⟨y, hy⟩ := y
      obtain ⟨z, hz⟩ := z
      simp only
      rcases abs_cases (x - y) with ⟨a1, _⟩ | ⟨a1, _⟩ <;> rcases abs_cases (y - z) with ⟨a2, _⟩ | ⟨a2, _⟩ <;>
        rcases abs_cases (x - z) with ⟨a3, _⟩ | ⟨a3, _⟩ <;> rw [a1, a2, a3] <;> linarith
    generalize |x.1 - y.1| = a at *
    generalize |y.1 - z.1| = b at *
    generalize |x.1 - z.1| = c at *
    rcases min_choice a (1 - a) with ha | ha <;> rcases min_choice b (1 - b) with hb | hb <;>
      rw [ha, hb] <;> rw [min_le_iff]
    · left; linarith
    · right; linarith
    · right; linarith
    · left; linarith

/-- C41 for `metric_so2`, coordinates in `[0, 1]`, with `0` and `1` identified. -/
theorem c41_so2 : FullMetric (fun x y : Unit01 α => (metricSO2 α).dist (fun _ => x.1) (fun _ => y.1))
    SameAngle :=
  circle_full

/-- A pose: two line coordinates and a circle coordinate. -/
def poseOf (p : α × α × Unit01 α) : Pt α 3 := fun i =>
  if i.val = 0 then p.1 else if i.val = 1 then p.2.1 else p.2.2.1

/-- C41 for `metric_se2_squared`. -/
theorem c41_se2_squared : PreMetric (fun p q => (metricSE2Sq α).dist (poseOf p) (poseOf q))
    (fun p q => p.1 = q.1 ∧ p.2.1 = q.2.1 ∧ SameAngle p.2.2 q.2.2) := by
  have e : ∀ p q, (metricSE2Sq α).dist (poseOf p) (poseOf q) =
      (p.1 - q.1) ^ 2 + (p.2.1 - q.2.1) ^ 2 + (s1Distance p.2.2.1 q.2.2.1) ^ 2 := by
    intro p q
    simp only [metricSE2Sq, poseOf, squaredR1Distance, squaredS1Distance, squared]
    simp
    ring
  have c := circle_full (α := α)
  refine ⟨?_, ?_, ?_⟩
  · intro x y; rw [e]; have := sq_nonneg (x.1 - y.1); have := sq_nonneg (x.2.1 - y.2.1)
    have := sq_nonneg (s1Distance x.2.2.1 y.2.2.1); linarith
  · intro x y
    have := c.comm x.2.2 y.2.2
    rw [e, e, this]; ring
  · intro x y
    have hz := c.zero x.2.2 y.2.2
    rw [e, ← hz]
    constructor
    · intro h
      have h1 := sq_nonneg (x.1 - y.1); have h2 := sq_nonneg (x.2.1 - y.2.1)
      have h3 := sq_nonneg (s1Distance x.2.2.1 y.2.2.1)
      refine ⟨sub_eq_zero.1 (pow_eq_zero_iff (two_ne_zero) |>.1 (by linarith)),
        sub_eq_zero.1 (pow_eq_zero_iff (two_ne_zero) |>.1 (by linarith)),
        pow_eq_zero_iff (two_ne_zero) |>.1 (by linarith)⟩
    · rintro ⟨h1, h2, h3⟩
      rw [h1, h2, h3]; ring

/-- C41: `metric(x)` of a scalar is the distance of two points `x` apart along one axis. -/
theorem c41_scalar (p : Pt α d) (j : Fin d) (x : α) :
    (metricL1 α d).dist p (Function.update p j (p j + x)) = (metricL1 α d).one x ∧
    (metricL2Sq α d).dist p (Function.update p j (p j + x)) = (metricL2Sq α d).one x ∧
    (metricLPInf α d).dist p (Function.update p j (p j + x)) = (metricLPInf α d).one x := by
  have key : ∀ f : α → α, f 0 = 0 → f (-x) = f x →
      ∑ k, f (p k - Function.update p j (p j + x) k) = f x := by
    intro f h0 hx
    rw [Finset.sum_eq_single j]
    · simp [hx]
    · intro k _ hk; simp [Function.update_of_ne hk, h0]
    · simp
  refine ⟨?_, ?_, ?_⟩
  · simp only [metricL1, loopSum_eq, r1Distance, sabs_eq]
    exact key (fun x => |x|) (by simp) (by simp)
  · simp only [metricL2Sq, loopSum_eq, squaredR1Distance, squared]
    exact key (fun x => x * x) (by simp) (by ring)
  · obtain ⟨h1, k, h2⟩ := c12_distance (α := α) (Fin.pos j) p (Function.update p j (p j + x))
    change _ = sabs x
    rw [sabs_eq]
    have hj := h1 j
    rw [Function.update_self, sub_add_cancel_left, abs_neg] at hj
    refine le_antisymm ?_ hj
    rw [← h2]
    by_cases hk : k = j
    · subst hk; simp
    · simp [Function.update_of_ne hk]

/-- C41: the scalar version on the circle, for shifts of at most half a turn that stay in `[0, 1]`. -/
theorem c41_scalar_circle (p : Pt α 1) (x : α) (hx : 2 * |x| ≤ 1) :
    (metricSO2 α).dist p (fun _ => p 0 + x) = (metricSO2 α).one x := by
  simp only [metricSO2, s1Distance_eq, sabs_eq, Spec.circle]
  rw [sub_add_cancel_left, abs_neg]
  exact min_eq_left (by linarith)

/-- C41: the scalar version for `metric_se2_squared`. -/
theorem c41_scalar_se2 (p : Pt α 3) (j : Fin 3) (x : α) (hx : j = 2 → 2 * |x| ≤ 1) :
    (metricSE2Sq α).dist p (Function.update p j (p j + x)) = (metricSE2Sq α).one x := by
  simp only [metricSE2Sq, squaredR1Distance, squaredS1Distance, squared, s1Distance_eq, Spec.circle]
  fin_cases j
  · simp [Function.update]
  · simp [Function.update]
  · have h := hx rfl
    simp only [Function.update, Fin.reduceFinMk]
    simp
    rw [min_eq_left (by linarith)]
    exact abs_mul_abs_self x

end

/-! ## Examples -/

/-- The hypotheses of the circle laws are met by `1/4` and `3/4`: opposite places. -/
example : (metricSO2 ℚ).dist (fun _ => 1/4) (fun _ => 3/4) = 1/2 := by decide +kernel

/-- The squared distance violates the triangle inequality, so `c41_l2_squared` cannot be extended. -/
example : ¬ (metricL2Sq Int 1).dist ![0] ![2] ≤
    (metricL2Sq Int 1).dist ![0] ![1] + (metricL2Sq Int 1).dist ![1] ![2] := by decide +kernel

/-- `metric_lninf` is zero on different points: it is not covered by C41 for a reason. -/
example : (metricLNInf (⟨-100, 100, id, id⟩ : Num Int) 2).dist ![0, 0] ![0, 5] = 0 := by decide +kernel

end Pico.Props
