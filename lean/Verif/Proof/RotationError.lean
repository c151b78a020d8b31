import Verif.Proof.ForestRounding
import Verif.Props.TrueDistance
import Mathlib.Algebra.Order.BigOperators.Ring.Finset

/-!
# Rounding errors of the reflection and of the distances between reflected points
-/

set_option linter.unusedSectionVars false

namespace Pico

open Spec

section Length
variable {K : Type} [Field K] [LinearOrder K] [IsStrictOrderedRing K] {d : Nat}

/-- The Euclidean length of `v` is at most `a`. -/
def LengthLe (v : Pt K d) (a : K) : Prop := 0 ≤ a ∧ ∑ j, v j ^ 2 ≤ a ^ 2

theorem LengthLe.inner {v w : Pt K d} {a b : K} (hv : LengthLe v a) (hw : LengthLe w b) :
    ∑ j, |v j * w j| ≤ a * b := by
  refine abs_le_of_sq_le_sq' ?_ (mul_nonneg hv.1 hw.1) |>.2
  have h1 := Finset.sum_mul_sq_le_sq_mul_sq Finset.univ (fun j => |v j|) (fun j => |w j|)
  simp only [sq_abs, ← abs_mul] at h1
  rw [mul_pow]
  exact h1.trans (mul_le_mul hv.2 hw.2 (Finset.sum_nonneg fun j _ => sq_nonneg _) (sq_nonneg _))

theorem LengthLe.add {v w : Pt K d} {a b : K} (hv : LengthLe v a) (hw : LengthLe w b) :
    LengthLe (fun j => v j + w j) (a + b) := by
  refine ⟨add_nonneg hv.1 hw.1, ?_⟩
  have h1 : ∑ j, v j * w j ≤ a * b :=
    (Finset.sum_le_sum fun j _ => le_abs_self _).trans (hv.inner hw)
  have e : ∑ j, (v j + w j) ^ 2 = ∑ j, v j ^ 2 + 2 * ∑ j, v j * w j + ∑ j, w j ^ 2 := by
    rw [Finset.mul_sum, ← Finset.sum_add_distrib, ← Finset.sum_add_distrib]
    exact Finset.sum_congr rfl fun j _ => by ring
  rw [e]
  nlinarith [hv.2, hw.2]

theorem LengthLe.of_le {v w : Pt K d} {a : K} (hw : LengthLe w a) (h : ∀ j, |v j| ≤ |w j|) : LengthLe v a :=
  ⟨hw.1, (Finset.sum_le_sum fun j _ => sq_le_sq.2 (h j)).trans hw.2⟩

theorem LengthLe.mono {v : Pt K d} {a b : K} (hv : LengthLe v a) (h : a ≤ b) : LengthLe v b :=
  ⟨hv.1.trans h, hv.2.trans (pow_le_pow_left₀ hv.1 h 2)⟩

theorem LengthLe.smul {v : Pt K d} {a c : K} (hv : LengthLe v a) (hc : 0 ≤ c) : LengthLe (fun j => c * v j) (c * a) := by
  refine ⟨mul_nonneg hc hv.1, ?_⟩
  simp only [mul_pow]
  rw [← Finset.mul_sum]
  exact mul_le_mul_of_nonneg_left hv.2 (sq_nonneg c)

theorem LengthLe.neg {v : Pt K d} {a : K} (hv : LengthLe v a) : LengthLe (fun j => -v j) a :=
  hv.of_le fun _ => (abs_neg _).le

theorem lengthLe_const {c : K} (hc : 0 ≤ c) : LengthLe (fun _ : Fin d => c) (d * c) := by
  refine ⟨mul_nonneg (Nat.cast_nonneg d) hc, ?_⟩
  rw [Finset.sum_const, Finset.card_univ, Fintype.card_fin, nsmul_eq_mul, mul_pow]
  refine mul_le_mul_of_nonneg_right ?_ (sq_nonneg c)
  have : d ≤ d ^ 2 := Nat.le_self_pow (by norm_num) d
  exact_mod_cast this

/-- The reflection of `x` at the plane through the origin with normal `r`. -/
def reflect (r x : Pt K d) : Pt K d := fun i => x i - 2 * (∑ j, r j * x j) * r i

theorem reflect_sub (r x y : Pt K d) (i : Fin d) :
    reflect r x i - reflect r y i = reflect r (fun j => x j - y j) i := by
  unfold reflect
  have : ∑ j, r j * (x j - y j) = ∑ j, r j * x j - ∑ j, r j * y j := by
    rw [← Finset.sum_sub_distrib]
    exact Finset.sum_congr rfl fun j _ => by ring
  rw [this]
  ring

theorem reflect_sq (r x : Pt K d) :
    ∑ j, reflect r x j ^ 2 = ∑ j, x j ^ 2 + 4 * (∑ j, r j ^ 2 - 1) * (∑ j, r j * x j) ^ 2 := by
  unfold reflect
  set s := ∑ j, r j * x j with hs
  have e : ∀ j, (x j - 2 * s * r j) ^ 2 = x j ^ 2 - 4 * s * (r j * x j) + 4 * s ^ 2 * r j ^ 2 := fun j => by ring
  simp only [e]
  rw [Finset.sum_add_distrib, Finset.sum_sub_distrib, ← Finset.mul_sum, ← Finset.mul_sum, ← hs]
  ring

/-- A vector that is nearly of length one reflects nearly without changing lengths. -/
theorem reflect_near {r : Pt K d} {η : K} (hr : |∑ j, r j ^ 2 - 1| ≤ η) (x : Pt K d) :
    |∑ j, reflect r x j ^ 2 - ∑ j, x j ^ 2| ≤ 4 * η * (1 + η) * ∑ j, x j ^ 2 := by
  have hη : 0 ≤ η := (abs_nonneg _).trans hr
  have hx : 0 ≤ ∑ j, x j ^ 2 := Finset.sum_nonneg fun j _ => sq_nonneg _
  have h1 := Finset.sum_mul_sq_le_sq_mul_sq Finset.univ r x
  have h2 : ∑ j, r j ^ 2 ≤ 1 + η := by have := (abs_le.1 hr).2; linarith
  rw [reflect_sq, add_sub_cancel_left, abs_mul, abs_mul, abs_of_nonneg (by norm_num : (0 : K) ≤ 4),
    abs_of_nonneg (sq_nonneg (∑ j, r j * x j))]
  have h3 : (∑ j, r j * x j) ^ 2 ≤ (1 + η) * ∑ j, x j ^ 2 := h1.trans (mul_le_mul_of_nonneg_right h2 hx)
  calc 4 * |∑ j, r j ^ 2 - 1| * (∑ j, r j * x j) ^ 2
      ≤ 4 * η * ((1 + η) * ∑ j, x j ^ 2) :=
        mul_le_mul (by linarith) h3 (sq_nonneg _) (by linarith)
    _ = _ := by ring

end Length

section Rotation
variable {K : Type} [Field K] [LinearOrder K] [IsStrictOrderedRing K] {R : Rounding K} {d : Nat} {u ν : K}

/-- The error of a product of scalars: the relative error `u`, or `ν` below the normal range. -/
def Rounding.MulError (R : Rounding K) (u ν : K) : Prop :=
  ∀ a b : R.F, |(a * b).1 - a.1 * b.1| ≤ u * |a.1 * b.1| + ν

/-- A rounded sum. -/
theorem loopSum_error (h : R.Error u) (hu0 : 0 ≤ u) (f : Fin d → R.F) :
    |(loopSum f).1 - ∑ j, (f j).1| ≤ ((1 + u) ^ d - 1) * ∑ j, |(f j).1| := by
  have key : ∀ (l : List (Fin d)) (acc : R.F),
      |(l.foldl (fun acc j => acc + f j) acc).1 - (acc.1 + (l.map fun j => (f j).1).sum)| ≤
        ((1 + u) ^ l.length - 1) * (|acc.1| + (l.map fun j => |(f j).1|).sum) := by
    intro l
    induction l with
    | nil => intro acc; simp
    | cons a l ih =>
      intro acc
      rw [List.foldl_cons, List.map_cons, List.map_cons, List.sum_cons, List.sum_cons, List.length_cons, pow_succ]
      have h1 := ih (acc + f a)
      have h2 : |(acc + f a).1 - (acc.1 + (f a).1)| ≤ u * |acc.1 + (f a).1| := h _ _ acc.2 (f a).2
      have h3 := abs_add_le acc.1 (f a).1
      set g := (1 + u) ^ l.length
      have hg : 1 ≤ g := one_le_pow₀ (by linarith)
      set s := (l.map fun j => (f j).1).sum
      set S := (l.map fun j => |(f j).1|).sum
      have hS : 0 ≤ S := by
        apply List.sum_nonneg
        intro x hx
        obtain ⟨j, _, rfl⟩ := List.mem_map.1 hx
        exact abs_nonneg _
      set v := (acc + f a).1
      set w := (l.foldl (fun acc j => acc + f j) (acc + f a)).1
      have h4 : |v| ≤ (1 + u) * (|acc.1| + |(f a).1|) := by
        have e : v = (v - (acc.1 + (f a).1)) + (acc.1 + (f a).1) := by ring
        rw [e]
        refine (abs_add_le _ _).trans ?_
        have := mul_le_mul_of_nonneg_left h3 hu0
        linarith
      have e : w - (acc.1 + ((f a).1 + s)) = (w - (v + s)) + (v - (acc.1 + (f a).1)) := by ring
      rw [e]
      refine (abs_add_le _ _).trans ?_
      have h5 := mul_le_mul_of_nonneg_left (add_le_add h4 (le_refl S)) (by linarith : 0 ≤ g - 1)
      have h6 := mul_le_mul_of_nonneg_left h3 hu0
      have h7 : 0 ≤ u * (g * S) := mul_nonneg hu0 (mul_nonneg (by linarith) hS)
      nlinarith
  have := key (List.finRange d) 0
  rw [List.length_finRange, R.val_zero, zero_add, abs_zero, zero_add] at this
  rw [← List.sum_ofFn, List.ofFn_eq_map, ← List.sum_ofFn, List.ofFn_eq_map]
  exact this

theorem Rounding.Error.sub (h : R.Error u) (a b : R.F) : |(a - b).1 - (a.1 - b.1)| ≤ u * |a.1 - b.1| := by
  have := h a.1 (-b.1) a.2 (by rw [R.odd, b.2])
  rw [R.val_sub]
  simpa [sub_eq_add_neg] using this

/-- How far `rotate_point` can be from the exact reflection, for a normal of length at most `ρ` and a point of
length at most `X`. -/
def rotationError (u ν : K) (d : Nat) (ρ X : K) : K :=
  (1 + u) * ((2 * ((1 + u) ^ (d + 3) - 1) * (ρ * X) + (2 * (d * (1 + u) ^ (d + 2)) + (1 + u)) * ν) * ρ + d * ν) +
    u * ((1 + 2 * ρ ^ 2) * X)

theorem rotate_error (h : R.Error u) (hm : R.MulError u ν) (hu0 : 0 ≤ u) (hν : 0 ≤ ν)
    (h2 : (1 + 1 : R.F).1 = 2) {r x : Pt R.F d} {ρ X : K} (hr : LengthLe (R.exactPt r) ρ)
    (hx : LengthLe (R.exactPt x) X) :
    LengthLe (fun i => (rotatePoint r x i).1 - reflect (R.exactPt r) (R.exactPt x) i) (rotationError u ν d ρ X) := by
  set c := ∑ j, (r j).1 * (x j).1 with hc
  set A := ∑ j, |(r j).1 * (x j).1| with hA
  have hA1 : A ≤ ρ * X := hr.inner hx
  have hA0 : 0 ≤ A := Finset.sum_nonneg fun j _ => abs_nonneg _
  have hcA : |c| ≤ A := Finset.abs_sum_le_sum_abs _ _
  set g := (1 + u) ^ d with hg
  have hg1 : 1 ≤ g := one_le_pow₀ (by linarith)
  set dot := loopSum fun i => r i * x i with hdot
  -- the inner product
  have b1 : |dot.1 - c| ≤ (g * (1 + u) - 1) * A + g * (d * ν) := by
    have e1 := loopSum_error h hu0 (fun i => r i * x i)
    have e2 : ∑ j, |(r j * x j).1 - (r j).1 * (x j).1| ≤ u * A + d * ν := by
      refine (Finset.sum_le_sum fun j _ => hm (r j) (x j)).trans ?_
      rw [Finset.sum_add_distrib, ← Finset.mul_sum, Finset.sum_const, Finset.card_univ, Fintype.card_fin,
        nsmul_eq_mul]
    have e3 : ∑ j, |(r j * x j).1| ≤ (1 + u) * A + d * ν := by
      have : ∀ j, |(r j * x j).1| ≤ |(r j * x j).1 - (r j).1 * (x j).1| + |(r j).1 * (x j).1| := by
        intro j
        have := abs_add_le ((r j * x j).1 - (r j).1 * (x j).1) ((r j).1 * (x j).1)
        rwa [sub_add_cancel] at this
      have := (Finset.sum_le_sum fun j (_ : j ∈ Finset.univ) => this j)
      rw [Finset.sum_add_distrib] at this
      linarith
    have e4 : |∑ j, (r j * x j).1 - c| ≤ u * A + d * ν := by
      rw [hc, ← Finset.sum_sub_distrib]
      exact (Finset.abs_sum_le_sum_abs _ _).trans e2
    have e5 : dot.1 - c = (dot.1 - ∑ j, (r j * x j).1) + (∑ j, (r j * x j).1 - c) := by ring
    rw [e5]
    refine (abs_add_le _ _).trans ?_
    have e6 := mul_le_mul_of_nonneg_left e3 (by linarith : 0 ≤ g - 1)
    nlinarith
  set D := dot * (1 + 1) with hD
  set B := 2 * (g * (1 + u) ^ 2 - 1) * A + 2 * ((1 + u) * (g * (d * ν))) + ν with hB
  have b2 : |D.1 - 2 * c| ≤ B := by
    have e1 := hm dot (1 + 1)
    rw [h2, abs_mul, abs_of_pos (by norm_num : (0 : K) < 2)] at e1
    have e2 : |dot.1| ≤ |dot.1 - c| + A := by
      have := abs_add_le (dot.1 - c) c
      rw [sub_add_cancel] at this
      linarith
    have e3 : D.1 - 2 * c = (D.1 - dot.1 * 2) + 2 * (dot.1 - c) := by ring
    rw [e3]
    refine (abs_add_le _ _).trans ?_
    rw [abs_mul, abs_of_pos (by norm_num : (0 : K) < 2)]
    have e4 := mul_le_mul_of_nonneg_left e2 hu0
    have e5 := mul_le_mul_of_nonneg_left b1 hu0
    rw [hB]
    nlinarith
  set P := 2 * (g * (1 + u) ^ 3 - 1) * A + (2 * ((1 + u) ^ 2 * (g * d)) + (1 + u)) * ν with hP
  have hB0 : 0 ≤ B := (abs_nonneg _).trans b2
  -- one coordinate
  have b3 : ∀ i, |(D * r i).1 - 2 * c * (r i).1| ≤ P * |(r i).1| + ν := by
    intro i
    have e1 := hm D (r i)
    rw [abs_mul] at e1
    have e2 : |D.1| ≤ B + 2 * A := by
      have := abs_add_le (D.1 - 2 * c) (2 * c)
      rw [sub_add_cancel, abs_mul 2 c, abs_of_pos (by norm_num : (0 : K) < 2)] at this
      linarith
    have e3 : (D * r i).1 - 2 * c * (r i).1 = ((D * r i).1 - D.1 * (r i).1) + (D.1 - 2 * c) * (r i).1 := by ring
    rw [e3]
    refine (abs_add_le _ _).trans ?_
    rw [abs_mul (D.1 - 2 * c)]
    have hr0 := abs_nonneg (r i).1
    have e4 := mul_le_mul_of_nonneg_right b2 hr0
    have e5 := mul_le_mul_of_nonneg_left (mul_le_mul_of_nonneg_right e2 hr0) hu0
    have e6 : P = u * (B + 2 * A) + B := by rw [hP, hB]; ring
    rw [e6]
    linarith
  have b4 : ∀ i, |(rotatePoint r x i).1 - reflect (R.exactPt r) (R.exactPt x) i| ≤
      (1 + u) * (P * |(r i).1| + ν) + u * |reflect (R.exactPt r) (R.exactPt x) i| := by
    intro i
    have e0 : reflect (R.exactPt r) (R.exactPt x) i = (x i).1 - 2 * c * (r i).1 := rfl
    have e1 : |(rotatePoint r x i).1 - ((x i).1 - (D * r i).1)| ≤ u * |(x i).1 - (D * r i).1| := h.sub _ _
    have e2 : |(x i).1 - (D * r i).1| ≤ |reflect (R.exactPt r) (R.exactPt x) i| +
        |(D * r i).1 - 2 * c * (r i).1| := by
      rw [e0]
      have := abs_add_le ((x i).1 - 2 * c * (r i).1) (-((D * r i).1 - 2 * c * (r i).1))
      rw [abs_neg] at this
      refine le_trans (le_of_eq ?_) this
      congr 1
      ring
    have e3 : (rotatePoint r x i).1 - reflect (R.exactPt r) (R.exactPt x) i =
        ((rotatePoint r x i).1 - ((x i).1 - (D * r i).1)) + -((D * r i).1 - 2 * c * (r i).1) := by rw [e0]; ring
    rw [e3]
    refine (abs_add_le _ _).trans ?_
    rw [abs_neg]
    have e4 := mul_le_mul_of_nonneg_left e2 hu0
    have e5 := mul_le_mul_of_nonneg_left (b3 i) (by linarith : 0 ≤ 1 + u)
    linarith
  have hP0 : 0 ≤ P := by
    have : P = u * (B + 2 * A) + B := by rw [hP, hB]; ring
    rw [this]
    have := mul_nonneg hu0 (by linarith : 0 ≤ B + 2 * A)
    linarith
  -- the length of the error
  have l1 : LengthLe (fun i => |(r i).1|) ρ := hr.of_le fun j => by rw [abs_abs]; exact le_rfl
  have hρ := hr.1
  have hX := hx.1
  have l2 : LengthLe (fun i => |reflect (R.exactPt r) (R.exactPt x) i|) ((1 + 2 * ρ ^ 2) * X) := by
    have m2 : LengthLe (fun i => |(x i).1| + 2 * |c| * |(r i).1|) (X + 2 * |c| * ρ) :=
      LengthLe.add (hx.of_le fun j => by rw [abs_abs]; exact le_rfl) (l1.smul (by positivity))
    refine (m2.of_le fun j => ?_).mono ?_
    · rw [abs_abs, abs_of_nonneg (by positivity : 0 ≤ |(x j).1| + 2 * |c| * |(r j).1|)]
      have := abs_add_le (x j).1 (-(2 * c * (r j).1))
      rw [abs_neg, abs_mul, abs_mul, abs_of_pos (by norm_num : (0 : K) < 2), ← sub_eq_add_neg] at this
      exact this
    · have : |c| * ρ ≤ ρ * X * ρ := mul_le_mul_of_nonneg_right (hcA.trans hA1) hρ
      nlinarith
  have l3 := ((l1.smul hP0).add (lengthLe_const (d := d) hν)).smul (by linarith : 0 ≤ 1 + u) |>.add (l2.smul hu0)
  refine (l3.of_le fun j => (b4 j).trans (le_abs_self _)).mono ?_
  unfold rotationError
  have hgd : g * (1 + u) ^ 3 = (1 + u) ^ (d + 3) := by rw [hg, ← pow_add]
  have hgd2 : (1 + u) ^ 2 * (g * d) = d * (1 + u) ^ (d + 2) := by rw [hg, pow_add]; ring
  have hPle : P ≤ 2 * ((1 + u) ^ (d + 3) - 1) * (ρ * X) + (2 * (d * (1 + u) ^ (d + 2)) + (1 + u)) * ν := by
    rw [hP, hgd, hgd2]
    have : 0 ≤ (1 + u) ^ (d + 3) - 1 := by
      have := one_le_pow₀ (by linarith : 1 ≤ 1 + u) (n := d + 3)
      linarith
    have := mul_le_mul_of_nonneg_left hA1 this
    linarith
  have := mul_le_mul_of_nonneg_right hPle hρ
  have := mul_le_mul_of_nonneg_left (add_le_add this (le_refl (d * ν))) (by linarith : 0 ≤ 1 + u)
  linarith

end Rotation

end Pico
