import Verif.Proof.Rounding

/-!
# Rounding a number close to a representable one
-/

namespace Pico

section Near
variable {p : Nat} {e : ℤ} {x z : ℚ}

/-- An integer that is less than a half away is the nearest one. -/
theorem roundEven_near {m : ℤ} (h : |z - m| < 1 / 2) : roundEven z = m := by
  have h1 := abs_le.1 (roundEven_error z)
  have h2 := abs_lt.1 h
  have h3 : ((roundEven z : ℤ) : ℚ) < (m + 1 : ℤ) := by push_cast; linarith
  have h4 : ((m - 1 : ℤ) : ℚ) < (roundEven z : ℤ) := by push_cast; linarith
  have h5 := Int.cast_lt.1 h3
  have h6 := Int.cast_lt.1 h4
  omega

/-- Rounding to multiples of `2^k` when `x` is such a multiple. -/
theorem roundEven_scaled {m k : ℤ} (hx : x = m * 2 ^ k) (h : |z - x| < 2 ^ k / 2) :
    (roundEven (z / 2 ^ k) : ℚ) * 2 ^ k = x := by
  have h2 : (0 : ℚ) < 2 ^ k := by positivity
  rw [roundEven_near (m := m), hx]
  have e1 : z / 2 ^ k - m = (z - x) / 2 ^ k := by rw [hx]; field_simp
  rw [e1, abs_div, abs_of_pos h2, div_lt_iff₀ h2]
  linarith

/-- A positive representable number is the rounded value of everything that differs from it by a small fraction of
its last place. -/
theorem tiny_near (hx : 0 < x) (hr : roundTinyPos p e x = x) (h : |z - x| ≤ x / 2 ^ (p + 3)) :
    roundTinyPos p e z = x := by
  have hP : (1 : ℚ) ≤ 2 ^ p := one_le_pow₀ (by norm_num)
  have hP3 : (2 : ℚ) ^ (p + 3) = 8 * 2 ^ p := by rw [pow_add]; norm_num; ring
  have hd : x / 2 ^ (p + 3) ≤ x / 8 := by
    rw [hP3]
    exact div_le_div_of_nonneg_left hx.le (by norm_num) (by linarith)
  have hz := abs_le.1 h
  have hz0 : 0 < z := by linarith
  have hep : (2 : ℚ) ^ (e + p) = 2 ^ p * 2 ^ e := by rw [tiny_scale]; push_cast; ring
  have he : (0 : ℚ) < 2 ^ e := by positivity
  -- the representable number
  have hxm : (∃ m : ℤ, x = m * 2 ^ e ∧ x < 2 ^ (e + p)) ∨
      (∃ m : ℤ, x = m * 2 ^ lastPlace p x ∧ 2 ^ (e + p) ≤ x) := by
    by_cases hc : (2 : ℚ) ^ (e + p) ≤ x
    · right
      unfold roundTinyPos at hr
      rw [if_pos hc] at hr
      unfold roundPos at hr
      exact ⟨_, hr.symm, hc⟩
    · left
      obtain ⟨m, -, hm⟩ := tiny_multiple (p := p) (e := e) hx.le
      rw [hr] at hm
      exact ⟨m, hm, not_le.1 hc⟩
  unfold roundTinyPos
  split_ifs with hc
  · -- normal range
    have hb := log_bounds hz0
    have hL : (2 : ℚ) ^ Int.log 2 z = 2 ^ p * 2 ^ lastPlace p z := by
      unfold lastPlace
      rw [← zpow_natCast, ← zpow_add₀ (by norm_num)]
      congr 1
      ring
    have hL0 : (0 : ℚ) < 2 ^ lastPlace p z := by positivity
    have hsmall : |z - x| < 2 ^ lastPlace p z / 2 := by
      refine lt_of_le_of_lt h ?_
      rw [div_lt_iff₀ (by positivity), hP3]
      rw [zpow_add_one₀ (by norm_num), hL] at hb
      nlinarith
    rcases hxm with ⟨m, hm, hlt⟩ | ⟨m, hm, hle⟩
    · exfalso
      have hm1 : m ≤ 2 ^ p - 1 := by
        have : (m : ℚ) * 2 ^ e < 2 ^ p * 2 ^ e := by rw [← hm, ← hep]; exact hlt
        have h3 : (m : ℚ) < ((2 ^ p : ℤ) : ℚ) := by
          push_cast
          exact lt_of_mul_lt_mul_right this he.le
        have := Int.cast_lt.1 h3
        omega
      have hm2 : (m : ℚ) ≤ 2 ^ p - 1 := by
        have h3 : (m : ℚ) ≤ ((2 ^ p - 1 : ℤ) : ℚ) := by exact_mod_cast hm1
        push_cast at h3
        exact h3
      have h1 : x ≤ (2 ^ p - 1) * 2 ^ e := by rw [hm]; exact mul_le_mul_of_nonneg_right hm2 he.le
      have h2 : x / 2 ^ (p + 3) < 2 ^ e := by
        rw [div_lt_iff₀ (by positivity), hP3]
        nlinarith
      rw [hep] at hc
      nlinarith [hz.2]
    · have hbx := log_bounds hx
      rcases le_or_gt (Int.log 2 z) (Int.log 2 x) with hlog | hlog
      · refine roundEven_scaled (m := m * 2 ^ (lastPlace p x - lastPlace p z).toNat) ?_ hsmall
        conv_lhs => rw [hm]
        push_cast
        rw [mul_assoc, ← zpow_natCast, ← zpow_add₀ (by norm_num)]
        congr 2
        unfold lastPlace
        omega
      · exfalso
        have hl0 : (0 : ℚ) < 2 ^ lastPlace p x := by positivity
        have e1 : (2 : ℚ) ^ (Int.log 2 x + 1) = 2 * 2 ^ p * 2 ^ lastPlace p x := by
          unfold lastPlace
          rw [zpow_add_one₀ (by norm_num), mul_assoc, ← zpow_natCast, ← zpow_add₀ (by norm_num), mul_comm]
          congr 2
          ring
        have hzge : (2 : ℚ) ^ (Int.log 2 x + 1) ≤ z :=
          le_trans (zpow_le_zpow_right₀ (by norm_num) (by omega)) hb.1
        have hm1 : (m : ℚ) ≤ 2 * 2 ^ p - 1 := by
          have h1 : (m : ℚ) * 2 ^ lastPlace p x < 2 * 2 ^ p * 2 ^ lastPlace p x := by
            rw [← hm, ← e1]; exact hbx.2
          have h3 : (m : ℚ) < ((2 * 2 ^ p : ℤ) : ℚ) := by
            push_cast
            exact lt_of_mul_lt_mul_right h1 hl0.le
          have h4 := Int.cast_lt.1 h3
          have h5 : m ≤ 2 * 2 ^ p - 1 := by omega
          have h6 : (m : ℚ) ≤ ((2 * 2 ^ p - 1 : ℤ) : ℚ) := by exact_mod_cast h5
          push_cast at h6
          exact h6
        have h1 : x ≤ (2 * 2 ^ p - 1) * 2 ^ lastPlace p x := by
          conv_lhs => rw [hm]
          exact mul_le_mul_of_nonneg_right hm1 hl0.le
        have h2 : x / 2 ^ (p + 3) < 2 ^ lastPlace p x := by
          rw [div_lt_iff₀ (by positivity), hP3]
          nlinarith
        rw [e1] at hzge
        nlinarith [hz.2]
  · -- below the normal range
    have hzlt : z < 2 ^ p * 2 ^ e := by rw [← hep]; exact not_le.1 hc
    obtain ⟨m, -, hm⟩ := tiny_multiple (p := p) (e := e) hx.le
    rw [hr] at hm
    refine roundEven_scaled hm ?_
    refine lt_of_le_of_lt h ?_
    rw [div_lt_iff₀ (by positivity), hP3]
    nlinarith

/-- The same for all representable numbers. -/
theorem ieee_near (hr : (ieee p e).rd x = x) (h : |z - x| ≤ |x| / 2 ^ (p + 3)) : (ieee p e).rd z = x := by
  change roundTiny p e x = x at hr
  change roundTiny p e z = x
  have hq : |x| / 2 ^ (p + 3) ≤ |x| / 8 := by
    refine div_le_div_of_nonneg_left (abs_nonneg x) (by norm_num) ?_
    rw [pow_add]
    have : (1 : ℚ) ≤ 2 ^ p := one_le_pow₀ (by norm_num)
    norm_num
    linarith
  rcases lt_trichotomy x 0 with hx | hx | hx
  · have h0 : 0 < -x := by linarith
    have h1 : roundTinyPos p e (-x) = -x := by
      rw [← roundTiny_of_nonneg h0.le, roundTiny_neg, hr]
    rw [abs_of_neg hx] at h hq
    have h2 : |(-z) - (-x)| ≤ -x / 2 ^ (p + 3) := by
      rw [← abs_neg]; convert h using 2; ring
    have h3 := tiny_near h0 h1 h2
    have hz : 0 ≤ -z := by have := abs_le.1 h2; linarith
    rw [← roundTiny_of_nonneg hz, roundTiny_neg] at h3
    linarith
  · subst hx
    have : z = 0 := by simpa using h
    rw [this, hr]
  · rw [abs_of_pos hx] at h hq
    have h1 : roundTinyPos p e x = x := by rw [← roundTiny_of_nonneg hx.le, hr]
    have hz : 0 ≤ z := by have := abs_le.1 h; linarith
    rw [roundTiny_of_nonneg hz]
    exact tiny_near hx h1 h

end Near

end Pico
