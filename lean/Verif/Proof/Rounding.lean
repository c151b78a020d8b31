import Verif.Model.Rounding
import Verif.Proof.Euclid
import Mathlib.Tactic.Linarith
import Mathlib.Tactic.Ring
import Mathlib.Tactic.Positivity
import Mathlib.Algebra.Order.Field.Power
import Mathlib.Tactic.NormNum
import Mathlib.Tactic.FieldSimp

/-! # Laws of rounded arithmetic -/

set_option linter.unusedSectionVars false

namespace Pico

section Binary

theorem roundEven_bounds (x : ℚ) : ⌊x⌋ ≤ roundEven x ∧ roundEven x ≤ ⌊x⌋ + 1 := by
  unfold roundEven
  split_ifs <;> constructor <;> omega

theorem roundEven_int (m : ℤ) : roundEven (m : ℚ) = m := by
  simp [roundEven]

theorem roundEven_mono {x y : ℚ} (h : x ≤ y) : roundEven x ≤ roundEven y := by
  have hf : ⌊x⌋ ≤ ⌊y⌋ := Int.floor_le_floor h
  rcases hf.lt_or_eq with hlt | heq
  · have h1 := (roundEven_bounds x).2
    have h2 := (roundEven_bounds y).1
    omega
  · unfold roundEven
    rw [heq]
    have hr : x - ⌊y⌋ ≤ y - ⌊y⌋ := by linarith
    split_ifs <;> first | omega | (exfalso; linarith)

theorem roundEven_error (x : ℚ) : |(roundEven x : ℚ) - x| ≤ 1 / 2 := by
  have h1 := Int.floor_le x
  have h2 := Int.lt_floor_add_one x
  unfold roundEven
  rw [abs_le]
  split_ifs <;> push_cast <;> constructor <;> linarith

variable {p : Nat} {x y : ℚ}

theorem log_bounds (hx : 0 < x) : (2 : ℚ) ^ Int.log 2 x ≤ x ∧ x < 2 ^ (Int.log 2 x + 1) :=
  ⟨by exact_mod_cast Int.zpow_log_le_self (b := 2) (by norm_num) hx,
   by exact_mod_cast Int.lt_zpow_succ_log_self (b := 2) (by norm_num) x⟩

theorem log_unique {e : ℤ} (h1 : (2 : ℚ) ^ e ≤ x) (h2 : x < 2 ^ (e + 1)) : Int.log 2 x = e := by
  have hx : 0 < x := lt_of_lt_of_le (by positivity) h1
  obtain ⟨h3, h4⟩ := log_bounds hx
  have a : e < Int.log 2 x + 1 := (zpow_lt_zpow_iff_right₀ (by norm_num : (1 : ℚ) < 2)).1 (lt_of_le_of_lt h1 h4)
  have b : Int.log 2 x < e + 1 := (zpow_lt_zpow_iff_right₀ (by norm_num : (1 : ℚ) < 2)).1 (lt_of_le_of_lt h3 h2)
  omega

theorem log_double (hx : 0 < x) : Int.log 2 (x + x) = Int.log 2 x + 1 := by
  obtain ⟨h1, h2⟩ := log_bounds hx
  apply log_unique
  · rw [zpow_add_one₀ (by norm_num)]; linarith
  · rw [zpow_add_one₀ (by norm_num)]; linarith

theorem scaled_bounds (hx : 0 < x) :
    (2 : ℚ) ^ p ≤ x / 2 ^ lastPlace p x ∧ x / 2 ^ lastPlace p x < 2 ^ (p + 1) := by
  obtain ⟨h1, h2⟩ := log_bounds hx
  unfold lastPlace
  have hk : (0 : ℚ) < 2 ^ (Int.log 2 x - p) := by positivity
  rw [le_div_iff₀ hk, div_lt_iff₀ hk]
  constructor
  · rw [← zpow_natCast, ← zpow_add₀ (by norm_num)]
    simpa using h1
  · rw [← zpow_natCast, ← zpow_add₀ (by norm_num)]
    refine lt_of_lt_of_eq h2 ?_
    congr 1
    push_cast
    ring

theorem significand_bounds (hx : 0 < x) :
    (2 : ℤ) ^ p ≤ roundEven (x / 2 ^ lastPlace p x) ∧ roundEven (x / 2 ^ lastPlace p x) ≤ 2 ^ (p + 1) := by
  obtain ⟨h1, h2⟩ := scaled_bounds (p := p) hx
  constructor
  · have := roundEven_mono h1
    have e : ((2 : ℚ) ^ p) = ((2 ^ p : ℤ) : ℚ) := by push_cast; rfl
    rwa [e, roundEven_int] at this
  · have := roundEven_mono h2.le
    have e : ((2 : ℚ) ^ (p + 1)) = ((2 ^ (p + 1) : ℤ) : ℚ) := by push_cast; rfl
    rwa [e, roundEven_int] at this

theorem roundPos_bounds (hx : 0 < x) :
    (2 : ℚ) ^ Int.log 2 x ≤ roundPos p x ∧ roundPos p x ≤ 2 ^ (Int.log 2 x + 1) := by
  obtain ⟨h1, h2⟩ := significand_bounds (p := p) hx
  unfold roundPos
  have hk : (0 : ℚ) < 2 ^ lastPlace p x := by positivity
  have h1' : ((2 : ℚ) ^ p) ≤ (roundEven (x / 2 ^ lastPlace p x) : ℚ) := by exact_mod_cast h1
  have h2' : (roundEven (x / 2 ^ lastPlace p x) : ℚ) ≤ (2 : ℚ) ^ (p + 1) := by exact_mod_cast h2
  constructor
  · refine le_trans (le_of_eq ?_) (mul_le_mul_of_nonneg_right h1' hk.le)
    rw [← zpow_natCast, ← zpow_add₀ (by norm_num)]
    congr 1
    unfold lastPlace
    ring
  · refine le_trans (mul_le_mul_of_nonneg_right h2' hk.le) (le_of_eq ?_)
    rw [← zpow_natCast, ← zpow_add₀ (by norm_num)]
    congr 1
    unfold lastPlace
    push_cast
    ring

theorem roundPos_pos (hx : 0 < x) : 0 < roundPos p x :=
  lt_of_lt_of_le (by positivity) (roundPos_bounds hx).1

theorem roundPos_mono (hx : 0 < x) (h : x ≤ y) : roundPos p x ≤ roundPos p y := by
  have hy : 0 < y := lt_of_lt_of_le hx h
  have hlog : Int.log 2 x ≤ Int.log 2 y := Int.log_mono_right hx h
  rcases hlog.lt_or_eq with hlt | heq
  · refine (roundPos_bounds hx).2.trans (le_trans ?_ (roundPos_bounds hy).1)
    exact zpow_le_zpow_right₀ (by norm_num) (by omega)
  · unfold roundPos lastPlace
    rw [heq]
    have hk : (0 : ℚ) < 2 ^ (Int.log 2 y - p) := by positivity
    refine mul_le_mul_of_nonneg_right ?_ hk.le
    have := roundEven_mono (div_le_div_of_nonneg_right h hk.le)
    exact_mod_cast this

theorem roundPos_double (hx : 0 < x) : roundPos p (x + x) = roundPos p x + roundPos p x := by
  have hk : lastPlace p (x + x) = lastPlace p x + 1 := by
    unfold lastPlace; rw [log_double hx]; ring
  unfold roundPos
  rw [hk, zpow_add_one₀ (by norm_num)]
  have h0 : (2 : ℚ) ^ lastPlace p x ≠ 0 := by positivity
  have : (x + x) / (2 ^ lastPlace p x * 2) = x / 2 ^ lastPlace p x := by
    field_simp
    ring
  rw [this]
  ring

theorem roundPos_of_multiple {m : ℤ} (hx : 0 < x) (h : x = m * 2 ^ lastPlace p x) : roundPos p x = x := by
  have h0 : (2 : ℚ) ^ lastPlace p x ≠ 0 := by positivity
  have h1 : x / 2 ^ lastPlace p x = m := by
    rw [div_eq_iff h0]; exact h
  unfold roundPos
  rw [h1, roundEven_int]
  exact h.symm

theorem roundPos_idem (hx : 0 < x) : roundPos p (roundPos p x) = roundPos p x := by
  have hpos := roundPos_pos (p := p) hx
  obtain ⟨h1, h2⟩ := roundPos_bounds (p := p) hx
  rcases h2.lt_or_eq with hlt | heq
  · have hl : Int.log 2 (roundPos p x) = Int.log 2 x := log_unique h1 hlt
    refine roundPos_of_multiple (m := roundEven (x / 2 ^ lastPlace p x)) hpos ?_
    have : lastPlace p (roundPos p x) = lastPlace p x := by unfold lastPlace; rw [hl]
    rw [this]
    rfl
  · have hl : Int.log 2 (roundPos p x) = Int.log 2 x + 1 := by
      rw [heq]
      exact log_unique le_rfl (zpow_lt_zpow_right₀ (by norm_num) (by omega))
    refine roundPos_of_multiple (m := 2 ^ p) hpos ?_
    unfold lastPlace
    rw [hl]
    push_cast
    rw [← zpow_natCast, ← zpow_add₀ (by norm_num), heq]
    congr 1
    ring

theorem roundPos_error (hx : 0 < x) : |roundPos p x - x| ≤ 2 ^ lastPlace p x / 2 := by
  have hk : (0 : ℚ) < 2 ^ lastPlace p x := by positivity
  have h := roundEven_error (x / 2 ^ lastPlace p x)
  have e : roundPos p x - x = (roundEven (x / 2 ^ lastPlace p x) - x / 2 ^ lastPlace p x) * 2 ^ lastPlace p x := by
    unfold roundPos
    rw [sub_mul, div_mul_cancel₀ _ hk.ne']
  rw [e, abs_mul, abs_of_pos hk]
  have := mul_le_mul_of_nonneg_right h hk.le
  linarith

theorem roundBits_of_pos (hx : 0 < x) : roundBits p x = roundPos p x := if_pos hx

theorem roundBits_zero : roundBits p 0 = 0 := by simp [roundBits]

theorem roundBits_neg (x : ℚ) : roundBits p (-x) = -roundBits p x := by
  unfold roundBits
  rcases lt_trichotomy x 0 with h | h | h
  · rw [if_pos (by linarith), if_neg (by linarith), if_pos h, neg_neg]
  · subst h; simp
  · rw [if_neg (by linarith), if_pos (by linarith), if_pos h, neg_neg]

theorem roundBits_pos (hx : 0 < x) : 0 < roundBits p x := by
  rw [roundBits_of_pos hx]; exact roundPos_pos hx

theorem roundBits_nonneg (hx : 0 ≤ x) : 0 ≤ roundBits p x := by
  rcases hx.lt_or_eq with h | h
  · exact (roundBits_pos h).le
  · rw [← h, roundBits_zero]

theorem roundBits_mono_nonneg (hx : 0 ≤ x) (h : x ≤ y) : roundBits p x ≤ roundBits p y := by
  rcases hx.lt_or_eq with hx | hx
  · rw [roundBits_of_pos hx, roundBits_of_pos (by linarith)]
    exact roundPos_mono hx h
  · subst hx
    rw [roundBits_zero]
    exact roundBits_nonneg h

theorem roundBits_double (x : ℚ) : roundBits p (x + x) = roundBits p x + roundBits p x := by
  rcases lt_trichotomy x 0 with h | h | h
  · have h' : 0 < -x := by linarith
    have e : roundBits p x = -roundPos p (-x) := by
      rw [← neg_neg x, roundBits_neg, neg_neg, roundBits_of_pos h']
    have e2 : x + x = -(-x + -x) := by ring
    rw [e, e2, roundBits_neg, roundBits_of_pos (by linarith), roundPos_double h']
    ring
  · subst h; simp [roundBits_zero]
  · rw [roundBits_of_pos h, roundBits_of_pos (by linarith), roundPos_double h]

theorem roundPos_half (hx : 0 < x) : roundPos p (x / 2) = roundPos p x / 2 := by
  have := roundPos_double (p := p) (half_pos hx)
  rw [add_halves] at this
  linarith

theorem roundPos_le_double (hx : 0 < x) : roundPos p x ≤ x + x := by
  by_contra hc
  push Not at hc
  have h1 : x ≤ roundPos p x / 2 := by linarith
  have h2 := roundPos_mono (p := p) hx h1
  rw [roundPos_half (roundPos_pos hx), roundPos_idem hx] at h2
  have := roundPos_pos (p := p) hx
  linarith

/-- Round to nearest, ties to even, `p + 1` significant bits. -/
def binary (p : Nat) : Rounding ℚ where
  rd := roundBits p
  mono x y h := by
    rcases le_total 0 x with hx | hx
    · exact roundBits_mono_nonneg hx h
    · rcases le_total 0 y with hy | hy
      · have h1 := roundBits_nonneg (p := p) (x := -x) (by linarith)
        rw [roundBits_neg] at h1
        exact le_trans (by linarith) (roundBits_nonneg hy)
      · have := roundBits_mono_nonneg (p := p) (x := -y) (y := -x) (by linarith) (by linarith)
        rw [roundBits_neg, roundBits_neg] at this
        linarith
  idem x := by
    rcases lt_trichotomy x 0 with h | h | h
    · have h' : 0 < -x := by linarith
      have e : roundBits p x = -roundPos p (-x) := by
        rw [← neg_neg x, roundBits_neg, neg_neg, roundBits_of_pos h']
      rw [e, roundBits_neg, roundBits_of_pos (roundPos_pos h'), roundPos_idem h']
    · subst h; rw [roundBits_zero, roundBits_zero]
    · rw [roundBits_of_pos h, roundBits_of_pos (roundPos_pos h), roundPos_idem h]
  odd := roundBits_neg
  double x hx := by rw [roundBits_double, hx]
  pos x y _ _ h := roundBits_pos (sub_pos.2 h)
  half x y _ _ h := by
    have h0 : 0 ≤ y - x := sub_nonneg.2 h
    rcases h0.lt_or_eq with h0 | h0
    · rw [roundBits_of_pos h0, roundBits_of_pos (half_pos (roundPos_pos h0)), roundPos_half (roundPos_pos h0),
        roundPos_idem h0]
      have := roundPos_le_double (p := p) h0
      linarith
    · rw [← h0]; simp [roundBits_zero]

/-- The rounding error is at most half a unit in the last place. -/
theorem binary_error (hx : 0 < x) : |(binary p).rd x - x| ≤ 2 ^ lastPlace p x / 2 := by
  change |roundBits p x - x| ≤ _
  rw [roundBits_of_pos hx]
  exact roundPos_error hx

end Binary

section Exact
variable {K : Type} [Field K] [LinearOrder K] [IsStrictOrderedRing K]

/-- The multiples `m * c` with `|m| ≤ L` are scalars. -/
def Rounding.ExactUpTo (R : Rounding K) (c : K) (L : Nat) : Prop :=
  ∀ m : ℤ, |m| ≤ (L : ℤ) → R.rd (m * c) = m * c

/-- Floating point numbers with `p + 1` significant bits: all multiples of a power of two up to
`2^(p + 1)`. -/
theorem binary_exactUpTo (p : Nat) (k : ℤ) : (binary p).ExactUpTo (2 ^ k) (2 ^ (p + 1)) := by
  have key : ∀ m : ℤ, 0 < m → m ≤ 2 ^ (p + 1) → roundBits p ((m : ℚ) * 2 ^ k) = m * 2 ^ k := by
    intro m hm hle
    have hx : (0 : ℚ) < m * 2 ^ k := by
      have : (0 : ℚ) < m := by exact_mod_cast hm
      positivity
    rw [roundBits_of_pos hx]
    rcases hle.lt_or_eq with hlt | heq
    · have hlog : Int.log 2 ((m : ℚ) * 2 ^ k) < k + p + 1 := by
        have h1 := (log_bounds hx).1
        have h2 : (m : ℚ) * 2 ^ k < 2 ^ (k + p + 1) := by
          have e : (2 : ℚ) ^ (k + p + 1) = 2 ^ (p + 1) * 2 ^ k := by
            rw [← zpow_natCast, ← zpow_add₀ (by norm_num)]
            congr 1
            push_cast
            ring
          rw [e]
          refine mul_lt_mul_of_pos_right ?_ (by positivity)
          exact_mod_cast hlt
        exact (zpow_lt_zpow_iff_right₀ (by norm_num : (1 : ℚ) < 2)).1 (lt_of_le_of_lt h1 h2)
      have hlp : lastPlace p ((m : ℚ) * 2 ^ k) ≤ k := by unfold lastPlace; omega
      refine roundPos_of_multiple (m := m * 2 ^ (k - lastPlace p ((m : ℚ) * 2 ^ k)).toNat) hx ?_
      push_cast
      rw [mul_assoc]
      congr 1
      rw [← zpow_natCast, ← zpow_add₀ (by norm_num)]
      congr 1
      omega
    · have hlog : Int.log 2 ((m : ℚ) * 2 ^ k) = k + p + 1 := by
        have e : (m : ℚ) * 2 ^ k = 2 ^ (k + p + 1) := by
          rw [heq]
          push_cast
          rw [← zpow_natCast, ← zpow_add₀ (by norm_num)]
          congr 1
          push_cast
          ring
        rw [e]
        exact log_unique le_rfl (zpow_lt_zpow_right₀ (by norm_num) (by omega))
      refine roundPos_of_multiple (m := 2 ^ p) hx ?_
      unfold lastPlace
      rw [hlog, heq]
      push_cast
      rw [← zpow_natCast, ← zpow_natCast, ← zpow_add₀ (by norm_num), ← zpow_add₀ (by norm_num)]
      congr 1
      push_cast
      ring
  intro m hm
  change roundBits p _ = _
  push_cast at hm
  rcases lt_trichotomy m 0 with h | h | h
  · have := key (-m) (by omega) (by rw [abs_of_neg h] at hm; exact hm)
    push_cast at this
    rw [neg_mul, roundBits_neg] at this
    linarith
  · subst h; simp [roundBits_zero]
  · exact key m h (by rw [abs_of_pos h] at hm; exact hm)

end Exact

/-! ## Gradual underflow -/

section Tiny
variable {p : Nat} {e : ℤ} {x y : ℚ}

theorem roundPos_multiple {m : ℤ} {k : ℤ} (hm : 0 < m) (hle : m ≤ 2 ^ (p + 1)) :
    roundPos p ((m : ℚ) * 2 ^ k) = m * 2 ^ k := by
  have hx : (0 : ℚ) < m * 2 ^ k := by
    have : (0 : ℚ) < m := by exact_mod_cast hm
    positivity
  rw [← roundBits_of_pos hx]
  exact binary_exactUpTo p k m (by rw [abs_of_pos hm]; exact_mod_cast hle)

theorem tiny_scale : (2 : ℚ) ^ (e + p) = ((2 ^ p : ℤ) : ℚ) * 2 ^ e := by
  push_cast
  rw [← zpow_natCast, ← zpow_add₀ (by norm_num)]
  congr 1
  ring

theorem tiny_log (h : (2 : ℚ) ^ (e + p) ≤ x) : e ≤ lastPlace p x := by
  have hx : 0 < x := lt_of_lt_of_le (by positivity) h
  have h2 := (log_bounds hx).2
  have := (zpow_lt_zpow_iff_right₀ (by norm_num : (1 : ℚ) < 2)).1 (lt_of_le_of_lt h h2)
  unfold lastPlace
  omega

theorem roundPos_ge (h : (2 : ℚ) ^ (e + p) ≤ x) : (2 : ℚ) ^ (e + p) ≤ roundPos p x := by
  have hx : 0 < x := lt_of_lt_of_le (by positivity) h
  refine le_trans (zpow_le_zpow_right₀ (by norm_num) ?_) (roundPos_bounds hx).1
  have := tiny_log h
  unfold lastPlace at this
  omega

/-- Every rounded number is a multiple of the smallest one. -/
theorem tiny_multiple (hx : 0 ≤ x) : ∃ m : ℤ, 0 ≤ m ∧ roundTinyPos p e x = m * 2 ^ e := by
  unfold roundTinyPos
  split_ifs with h
  · have hx' : 0 < x := lt_of_lt_of_le (by positivity) h
    have h1 := tiny_log h
    refine ⟨roundEven (x / 2 ^ lastPlace p x) * 2 ^ (lastPlace p x - e).toNat, ?_, ?_⟩
    · have := (significand_bounds (p := p) hx').1
      have h0 : (0 : ℤ) < 2 ^ p := by positivity
      exact mul_nonneg (by omega) (by positivity)
    · unfold roundPos
      push_cast
      rw [mul_assoc, ← zpow_natCast, ← zpow_add₀ (by norm_num)]
      congr 2
      omega
  · refine ⟨_, ?_, rfl⟩
    have : roundEven ((0 : ℤ) : ℚ) ≤ roundEven (x / 2 ^ e) :=
      roundEven_mono (by push_cast; positivity)
    rwa [roundEven_int] at this

theorem tiny_nonneg (hx : 0 ≤ x) : 0 ≤ roundTinyPos p e x := by
  obtain ⟨m, hm, h⟩ := tiny_multiple (p := p) (e := e) hx
  rw [h]
  have : (0 : ℚ) ≤ m := by exact_mod_cast hm
  positivity

/-- Multiples of the smallest number with few enough bits are exact. -/
theorem tiny_exact {m : ℤ} (hm : 0 ≤ m) (hle : m ≤ 2 ^ (p + 1)) :
    roundTinyPos p e ((m : ℚ) * 2 ^ e) = m * 2 ^ e := by
  unfold roundTinyPos
  split_ifs with h
  · refine roundPos_multiple ?_ hle
    rcases hm.lt_or_eq with h0 | h0
    · exact h0
    · rw [← h0] at h
      have : (0 : ℚ) < 2 ^ (e + p) := by positivity
      simp at h
      linarith
  · rw [mul_div_assoc, div_self (by positivity), mul_one, roundEven_int]

theorem tiny_zero : roundTinyPos p e 0 = 0 := by
  have := tiny_exact (p := p) (e := e) (m := 0) le_rfl (by positivity)
  simpa using this

theorem tiny_small (h : x ≤ 2 ^ (e + p)) : roundTinyPos p e x ≤ 2 ^ (e + p) := by
  rcases h.lt_or_eq with h | h
  · unfold roundTinyPos
    rw [if_neg (not_le.2 h), tiny_scale]
    refine mul_le_mul_of_nonneg_right ?_ (by positivity)
    have h1 : x / 2 ^ e ≤ ((2 ^ p : ℤ) : ℚ) := by
      rw [div_le_iff₀ (by positivity), ← tiny_scale]; exact h.le
    have := roundEven_mono h1
    rw [roundEven_int] at this
    exact_mod_cast this
  · rw [h, tiny_scale]
    rw [tiny_exact (by positivity) (by rw [pow_succ]; have : (0 : ℤ) < 2 ^ p := by positivity
                                       omega)]

theorem tiny_mono (hx : 0 ≤ x) (h : x ≤ y) : roundTinyPos p e x ≤ roundTinyPos p e y := by
  by_cases hy : (2 : ℚ) ^ (e + p) ≤ y
  · by_cases hx' : (2 : ℚ) ^ (e + p) ≤ x
    · unfold roundTinyPos
      rw [if_pos hx', if_pos hy]
      exact roundPos_mono (lt_of_lt_of_le (by positivity) hx') h
    · refine (tiny_small (not_le.1 hx').le).trans ?_
      unfold roundTinyPos
      rw [if_pos hy]
      exact roundPos_ge hy
  · have hx' : ¬ (2 : ℚ) ^ (e + p) ≤ x := fun hc => hy (hc.trans h)
    unfold roundTinyPos
    rw [if_neg hx', if_neg hy]
    refine mul_le_mul_of_nonneg_right ?_ (by positivity)
    exact_mod_cast roundEven_mono (div_le_div_of_nonneg_right h (by positivity))

/-- Multiples of the smallest number below the normal range are exact. -/
theorem tiny_exact_of_le {m : ℤ} (hm : 0 ≤ m) (h : (m : ℚ) * 2 ^ e ≤ 2 ^ (e + p)) :
    roundTinyPos p e ((m : ℚ) * 2 ^ e) = m * 2 ^ e := by
  refine tiny_exact hm ?_
  rw [tiny_scale] at h
  have h1 : (m : ℚ) ≤ ((2 ^ p : ℤ) : ℚ) := le_of_mul_le_mul_right h (by positivity)
  have h2 : m ≤ 2 ^ p := by exact_mod_cast h1
  rw [pow_succ]
  have : (0 : ℤ) < 2 ^ p := by positivity
  omega

theorem tiny_idem (hx : 0 ≤ x) : roundTinyPos p e (roundTinyPos p e x) = roundTinyPos p e x := by
  by_cases h : (2 : ℚ) ^ (e + p) ≤ x
  · have h1 := roundPos_ge h
    have e1 : roundTinyPos p e x = roundPos p x := by unfold roundTinyPos; rw [if_pos h]
    rw [e1]
    unfold roundTinyPos
    rw [if_pos h1, roundPos_idem (lt_of_lt_of_le (by positivity) h)]
  · obtain ⟨m, hm, e1⟩ := tiny_multiple (p := p) (e := e) hx
    have := tiny_small (p := p) (not_le.1 h).le
    rw [e1] at this ⊢
    exact tiny_exact_of_le hm this

theorem tiny_double (hx : 0 ≤ x) (h : roundTinyPos p e x = x) : roundTinyPos p e (x + x) = x + x := by
  by_cases hx' : (2 : ℚ) ^ (e + p) ≤ x
  · have hp : 0 < x := lt_of_lt_of_le (by positivity) hx'
    have e1 : roundPos p x = x := by unfold roundTinyPos at h; rwa [if_pos hx'] at h
    unfold roundTinyPos
    rw [if_pos (by linarith), roundPos_double hp, e1]
  · obtain ⟨m, hm, e1⟩ := tiny_multiple (p := p) (e := e) hx
    rw [h] at e1
    have h1 := not_le.1 hx'
    rw [e1, tiny_scale] at h1
    have h2 : (m : ℚ) < ((2 ^ p : ℤ) : ℚ) := lt_of_mul_lt_mul_right h1 (by positivity)
    have h3 : m < 2 ^ p := by exact_mod_cast h2
    have e2 : x + x = ((2 * m : ℤ) : ℚ) * 2 ^ e := by rw [e1]; push_cast; ring
    rw [e2]
    refine tiny_exact (by omega) ?_
    rw [pow_succ]
    omega

theorem tiny_half {m : ℤ} (hm : 0 ≤ m) (h : x = m * 2 ^ e) :
    roundTinyPos p e (roundTinyPos p e x / 2) ≤ x := by
  have hx : 0 ≤ x := by
    rw [h]
    have : (0 : ℚ) ≤ m := by exact_mod_cast hm
    positivity
  have h0 := tiny_nonneg (p := p) (e := e) hx
  by_cases hx' : (2 : ℚ) ^ (e + p) ≤ x
  · have hp : 0 < x := lt_of_lt_of_le (by positivity) hx'
    by_cases hh : (2 : ℚ) ^ (e + p) ≤ roundTinyPos p e x / 2
    · have e1 : roundTinyPos p e x = roundPos p x := by unfold roundTinyPos; rw [if_pos hx']
      rw [e1] at hh ⊢
      unfold roundTinyPos
      rw [if_pos hh, roundPos_half (roundPos_pos hp), roundPos_idem hp]
      have := roundPos_le_double (p := p) hp
      linarith
    · exact (tiny_small (not_le.1 hh).le).trans hx'
  · have h1 := not_le.1 hx'
    rw [h] at h1
    have e1 := tiny_exact_of_le (p := p) hm h1.le
    rw [← h] at e1
    rw [e1]
    refine (tiny_mono (by linarith) (by linarith : x / 2 ≤ x)).trans ?_
    rw [e1]

theorem roundTiny_of_nonneg (hx : 0 ≤ x) : roundTiny p e x = roundTinyPos p e x := if_pos hx

theorem roundTiny_neg (x : ℚ) : roundTiny p e (-x) = -roundTiny p e x := by
  unfold roundTiny
  rcases lt_trichotomy x 0 with h | h | h
  · rw [if_pos (by linarith), if_neg (by linarith), neg_neg]
  · subst h; simp [tiny_zero]
  · rw [if_neg (by linarith), if_pos (by linarith), neg_neg]

theorem roundTiny_nonneg (hx : 0 ≤ x) : 0 ≤ roundTiny p e x := by
  rw [roundTiny_of_nonneg hx]; exact tiny_nonneg hx

/-- Scalars are multiples of the smallest one. -/
theorem roundTiny_multiple (h : roundTiny p e x = x) : ∃ m : ℤ, x = m * 2 ^ e := by
  rcases le_total 0 x with hx | hx
  · rw [roundTiny_of_nonneg hx] at h
    obtain ⟨m, _, e1⟩ := tiny_multiple (p := p) (e := e) hx
    exact ⟨m, h.symm.trans e1⟩
  · have h' : roundTiny p e (-x) = -x := by rw [roundTiny_neg, h]
    rw [roundTiny_of_nonneg (by linarith)] at h'
    obtain ⟨m, _, e1⟩ := tiny_multiple (p := p) (e := e) (x := -x) (by linarith)
    refine ⟨-m, ?_⟩
    rw [h'] at e1
    push_cast
    linarith

/-- Round to nearest, ties to even, `p + 1` significant bits, gradual underflow at `2^e`. -/
def ieee (p : Nat) (e : ℤ) : Rounding ℚ where
  rd := roundTiny p e
  mono x y h := by
    rcases le_total 0 x with hx | hx
    · rw [roundTiny_of_nonneg hx, roundTiny_of_nonneg (by linarith)]
      exact tiny_mono hx h
    · rcases le_total 0 y with hy | hy
      · have h1 := roundTiny_nonneg (p := p) (e := e) (x := -x) (by linarith)
        rw [roundTiny_neg] at h1
        exact le_trans (by linarith) (roundTiny_nonneg hy)
      · have := tiny_mono (p := p) (e := e) (x := -y) (y := -x) (by linarith) (by linarith)
        rw [← roundTiny_of_nonneg (by linarith), ← roundTiny_of_nonneg (by linarith), roundTiny_neg,
          roundTiny_neg] at this
        linarith
  idem x := by
    rcases le_total 0 x with hx | hx
    · rw [roundTiny_of_nonneg hx, roundTiny_of_nonneg (tiny_nonneg hx), tiny_idem hx]
    · have hx' : 0 ≤ -x := by linarith
      have e1 : roundTiny p e x = -roundTinyPos p e (-x) := by
        rw [← roundTiny_of_nonneg hx', roundTiny_neg, neg_neg]
      rw [e1, roundTiny_neg, roundTiny_of_nonneg (tiny_nonneg hx'), tiny_idem hx']
  odd := roundTiny_neg
  double x h := by
    rcases le_total 0 x with hx | hx
    · rw [roundTiny_of_nonneg hx] at h
      rw [roundTiny_of_nonneg (by linarith)]
      exact tiny_double hx h
    · have h' : roundTiny p e (-x) = -x := by rw [roundTiny_neg, h]
      rw [roundTiny_of_nonneg (by linarith)] at h'
      have := tiny_double (by linarith) h'
      rw [← roundTiny_of_nonneg (by linarith), ← neg_add, roundTiny_neg] at this
      linarith
  pos x y hx hy h := by
    obtain ⟨a, ha⟩ := roundTiny_multiple hx
    obtain ⟨b, hb⟩ := roundTiny_multiple hy
    have e1 : y - x = ((b - a : ℤ) : ℚ) * 2 ^ e := by rw [ha, hb]; push_cast; ring
    have hp : (0 : ℚ) < 2 ^ e := by positivity
    have h1 : (0 : ℚ) < ((b - a : ℤ) : ℚ) := by
      have : 0 < y - x := by linarith
      rw [e1] at this
      exact pos_of_mul_pos_left this hp.le
    have h2 : (1 : ℤ) ≤ b - a := by
      have : 0 < b - a := by exact_mod_cast h1
      omega
    have h3 : (1 : ℤ) * (2 : ℚ) ^ e ≤ y - x := by
      rw [e1]
      refine mul_le_mul_of_nonneg_right ?_ hp.le
      exact_mod_cast h2
    rw [roundTiny_of_nonneg (by linarith)]
    refine lt_of_lt_of_le ?_ (tiny_mono (by positivity) h3)
    rw [tiny_exact (by decide) (one_le_pow₀ (by decide))]
    positivity
  half x y hx hy h := by
    obtain ⟨a, ha⟩ := roundTiny_multiple hx
    obtain ⟨b, hb⟩ := roundTiny_multiple hy
    have e1 : y - x = ((b - a : ℤ) : ℚ) * 2 ^ e := by rw [ha, hb]; push_cast; ring
    have h0 : 0 ≤ y - x := by linarith
    have hp : (0 : ℚ) < 2 ^ e := by positivity
    have h1 : (0 : ℚ) ≤ ((b - a : ℤ) : ℚ) := by
      rw [e1] at h0
      exact nonneg_of_mul_nonneg_left h0 hp
    rw [roundTiny_of_nonneg h0, roundTiny_of_nonneg (by have := tiny_nonneg (p := p) (e := e) h0; linarith)]
    exact tiny_half (by exact_mod_cast h1) e1

/-- Multiples of a power of two up to `2^(p + 1)` are scalars, if the power is not below the smallest one. -/
theorem ieee_exactUpTo (p : Nat) (e : ℤ) {k : ℤ} (hk : e ≤ k) :
    (ieee p e).ExactUpTo (2 ^ k) (2 ^ (p + 1)) := by
  have key : ∀ m : ℤ, 0 ≤ m → m ≤ 2 ^ (p + 1) → roundTiny p e ((m : ℚ) * 2 ^ k) = m * 2 ^ k := by
    intro m hm hle
    have hm' : (0 : ℚ) ≤ m := by exact_mod_cast hm
    rw [roundTiny_of_nonneg (by positivity)]
    by_cases h : (2 : ℚ) ^ (e + p) ≤ (m : ℚ) * 2 ^ k
    · unfold roundTinyPos
      rw [if_pos h]
      refine roundPos_multiple ?_ hle
      rcases hm.lt_or_eq with h0 | h0
      · exact h0
      · rw [← h0] at h
        have : (0 : ℚ) < 2 ^ (e + p) := by positivity
        simp at h
        linarith
    · have e1 : (m : ℚ) * 2 ^ k = ((m * 2 ^ (k - e).toNat : ℤ) : ℚ) * 2 ^ e := by
        push_cast
        rw [mul_assoc, ← zpow_natCast, ← zpow_add₀ (by norm_num)]
        congr 2
        omega
      have h1 := (not_le.1 h).le
      rw [e1] at h1 ⊢
      exact tiny_exact_of_le (by positivity) h1
  intro m hm
  change roundTiny p e _ = _
  push_cast at hm
  rcases le_total 0 m with h | h
  · exact key m h (by rw [abs_of_nonneg h] at hm; exact hm)
  · have := key (-m) (by omega) (by rw [abs_of_nonpos h] at hm; exact hm)
    push_cast at this
    rw [neg_mul, roundTiny_neg] at this
    linarith

end Tiny

/-! ## The laws the searches need -/

/-- The laws of subtraction, addition and negation used by the one-dimensional theorem. -/
structure RoundedLaws (α : Type) [LinearOrder α] [Zero α] [Add α] [Sub α] [Neg α] : Prop where
  sub_self : ∀ a : α, a - a = 0
  zero_add : ∀ a : α, 0 + a = a
  add_mono : ∀ a b c e : α, a ≤ b → c ≤ e → a + c ≤ b + e
  sub_mono : ∀ a b c e : α, a ≤ b → e ≤ c → a - c ≤ b - e
  sub_pos : ∀ a b : α, a < b → 0 < b - a
  neg_sub : ∀ a b : α, -(a - b) = b - a
  neg_pos : ∀ a : α, a < 0 → 0 < -a
  double : ∀ a : α, a + a - a = a

/-- The laws of squaring. -/
structure SquareLaws (α : Type) [LinearOrder α] [Zero α] [Neg α] [Mul α] : Prop where
  zero_mul_zero : (0 : α) * 0 = 0
  mul_mono : ∀ a b : α, 0 ≤ a → a ≤ b → a * a ≤ b * b
  neg_mul_neg : ∀ a : α, (-a) * (-a) = a * a

section Rounding
variable {K : Type} [Field K] [LinearOrder K] [IsStrictOrderedRing K] (R : Rounding K)

theorem Rounding.val_add (a b : R.F) : (a + b).1 = R.rd (a.1 + b.1) := rfl
theorem Rounding.val_sub (a b : R.F) : (a - b).1 = R.rd (a.1 - b.1) := rfl
theorem Rounding.val_mul (a b : R.F) : (a * b).1 = R.rd (a.1 * b.1) := rfl
theorem Rounding.val_neg (a : R.F) : (-a).1 = -a.1 := rfl
theorem Rounding.val_zero : (0 : R.F).1 = 0 := rfl
theorem Rounding.le_iff (a b : R.F) : a ≤ b ↔ a.1 ≤ b.1 := Iff.rfl
theorem Rounding.lt_iff (a b : R.F) : a < b ↔ a.1 < b.1 := Iff.rfl

theorem Rounding.laws : RoundedLaws R.F where
  sub_self a := Subtype.ext (by rw [R.val_sub, _root_.sub_self, R.rd_zero]; rfl)
  zero_add a := Subtype.ext (by rw [R.val_add, R.val_zero, _root_.zero_add, a.2])
  add_mono a b c e h1 h2 := R.mono _ _ (add_le_add h1 h2)
  sub_mono a b c e h1 h2 := R.mono _ _ (sub_le_sub h1 h2)
  sub_pos a b h := R.pos _ _ a.2 b.2 h
  neg_sub a b := Subtype.ext (by rw [R.val_neg, R.val_sub, R.val_sub, ← R.odd, _root_.neg_sub])
  neg_pos a h := _root_.neg_pos.2 h
  double a := Subtype.ext (by
    rw [R.val_sub, R.val_add, R.double _ a.2, add_sub_cancel_right, a.2])

theorem Rounding.squareLaws : SquareLaws R.F where
  zero_mul_zero := Subtype.ext (by rw [R.val_mul, R.val_zero, mul_zero, R.rd_zero])
  mul_mono a b h1 h2 := R.mono _ _ (mul_self_le_mul_self h1 h2)
  neg_mul_neg a := Subtype.ext (by rw [R.val_mul, R.val_mul, R.val_neg, _root_.neg_mul_neg])

/-- The rounded midpoint of two scalars lies between them. -/
theorem Rounding.mid (a b : R.F) :
    min a b ≤ R.ofK ((b - a).1 / 2) + a ∧ R.ofK ((b - a).1 / 2) + a ≤ max a b := by
  have hv : (R.ofK ((b - a).1 / 2) + a).1 = R.rd (R.rd (R.rd (b.1 - a.1) / 2) + a.1) := rfl
  have nn : ∀ x : K, 0 ≤ x → 0 ≤ R.rd x := by
    intro x hx
    have := R.mono _ _ hx; rwa [R.rd_zero] at this
  rcases le_total a b with h | h
  · rw [min_eq_left h, max_eq_right h]
    have hab : 0 ≤ b.1 - a.1 := _root_.sub_nonneg.2 h
    have h0 : 0 ≤ R.rd (R.rd (b.1 - a.1) / 2) := nn _ (div_nonneg (nn _ hab) zero_le_two)
    have h1 := R.half _ _ a.2 b.2 h
    constructor
    · rw [R.le_iff, hv]
      refine le_trans (le_of_eq a.2.symm) (R.mono _ _ ?_)
      linarith
    · rw [R.le_iff, hv]
      refine le_trans (R.mono _ _ ?_) (le_of_eq b.2)
      linarith
  · rw [min_eq_right h, max_eq_left h]
    have hab : 0 ≤ a.1 - b.1 := _root_.sub_nonneg.2 h
    have hneg : R.rd (R.rd (b.1 - a.1) / 2) = -R.rd (R.rd (a.1 - b.1) / 2) := by
      rw [← R.odd, ← neg_div, ← R.odd, _root_.neg_sub]
    rw [hneg] at hv
    have h0 : 0 ≤ R.rd (R.rd (a.1 - b.1) / 2) := nn _ (div_nonneg (nn _ hab) zero_le_two)
    have h1 := R.half _ _ b.2 a.2 h
    constructor
    · rw [R.le_iff, hv]
      refine le_trans (le_of_eq b.2.symm) (R.mono _ _ ?_)
      linarith
    · rw [R.le_iff, hv]
      refine le_trans (R.mono _ _ ?_) (le_of_eq a.2)
      linarith

theorem Rounding.midOk (low big : R.F) : MidOk (R.num low big) := by
  intro a b hab _ _
  have := R.mid a b
  rwa [min_eq_left hab, max_eq_right hab] at this

end Rounding

/-! ## The pruning bound of one axis -/

section Axis
variable {α : Type} [LinearOrder α] [Zero α] [Add α] [Sub α] [Neg α] {d : Nat}

/-- A metric that is a (rounded) sum over the axes of a function of the (rounded) coordinate difference. -/
structure AxisMetric (M : Metric α d) : Prop where
  nonneg : ∀ x, 0 ≤ M.one x
  mono : ∀ x y, 0 ≤ x → x ≤ y → M.one x ≤ M.one y
  symm : ∀ a b, M.one (a - b) = M.one (b - a)
  dist_eq : ∀ x y, M.dist x y = loopSum fun j => M.one (x j - y j)

theorem guard_axis (L : RoundedLaws α) {M : Metric α d} (hM : AxisMetric M) {pts : Nat → Pt α d}
    (q : Pt α d) {o : Nat} {t : Tree (Branch1 α d)} {seg : List Nat} {box : Box α d}
    (h : Built pts setBranchEuclidean o t seg box) (pre post : List Nat) (ho : o = pre.length) :
    Guard (euclideanTag α d).splitDim ((euclideanTag α d).pick M q) (pre ++ (seg ++ post))
      (fun j i => M.one (q j - pts i j)) t := by
  induction h generalizing pre post with
  | leaf _ => trivial
  | @branch o l r segL segR boxL boxR dim hl hr hlr ih1 ih2 =>
    have hel := hl.elems_eq pre (segR ++ post) ho
    have her := hr.elems_eq (pre ++ segL) post (by simp [ho])
    have g1 := ih1 pre (segR ++ post) ho
    have g2 := ih2 (pre ++ segL) post (by simp [ho])
    simp only [List.append_assoc] at hel her g1 g2 ⊢
    refine ⟨?_, g1, g2⟩
    intro i hi
    simp only [euclideanTag, pickEuclidean, setBranchEuclidean] at hi ⊢
    have hnn : ∀ a b : α, a ≤ b → 0 ≤ b - a := by
      intro a b h
      rw [← L.sub_self a]; exact L.sub_mono _ _ _ _ h le_rfl
    by_cases hc : boxL.max dim + boxR.min dim - q dim - q dim > 0
    · simp only [if_pos hc, if_true] at hi ⊢
      rw [her] at hi
      have hp := (hr.mem i hi dim).1
      have h1 : q dim ≤ boxR.min dim := by
        by_contra hlt
        push Not at hlt
        have h2 := L.add_mono _ _ _ _ (hlr.trans hlt.le) hlt.le
        have h3 := L.sub_mono _ _ _ _ h2 (le_refl (q dim))
        rw [L.double] at h3
        have h4 := L.sub_mono _ _ _ _ h3 (le_refl (q dim))
        rw [L.sub_self] at h4
        exact absurd hc (not_lt.2 h4)
      rw [hM.symm (q dim)]
      exact hM.mono _ _ (hnn _ _ h1) (L.sub_mono _ _ _ _ hp le_rfl)
    · simp only [if_neg hc, Bool.false_eq_true, if_false] at hi ⊢
      rw [hel] at hi
      have hp := (hl.mem i hi dim).2
      have h1 : boxL.max dim ≤ q dim := by
        by_contra hlt
        push Not at hlt
        apply hc
        have h2 := L.add_mono _ _ _ _ (le_refl (boxL.max dim)) hlr
        have h3 := L.sub_mono _ _ _ _ h2 hlt.le
        rw [L.double] at h3
        exact lt_of_lt_of_le (L.sub_pos _ _ hlt) (L.sub_mono _ _ _ _ h3 le_rfl)
      rw [hM.symm (boxL.max dim)]
      exact hM.mono _ _ (hnn _ _ h1) (L.sub_mono _ _ _ _ le_rfl hp)

theorem RoundedLaws.neg_zero (L : RoundedLaws α) : -(0 : α) = 0 := by
  have := L.neg_sub (0 : α) 0
  rwa [L.sub_self] at this

theorem axis_l1 (L : RoundedLaws α) : AxisMetric (metricL1 α d) where
  nonneg x := by
    simp only [metricL1, sabs]
    split_ifs with h
    · exact (L.neg_pos x h).le
    · exact not_lt.1 h
  mono x y h1 h2 := by
    simp only [metricL1, sabs]
    rw [if_neg (not_lt.2 h1), if_neg (not_lt.2 (h1.trans h2))]
    exact h2
  symm a b := by
    have key : ∀ a b : α, a ≤ b → sabs (a - b) = sabs (b - a) := by
      intro a b hab
      have h1 : 0 ≤ b - a := by rw [← L.sub_self a]; exact L.sub_mono _ _ _ _ hab le_rfl
      have h2 : a - b ≤ 0 := by rw [← L.sub_self a]; exact L.sub_mono _ _ _ _ le_rfl hab
      unfold sabs
      rw [if_neg (not_lt.2 h1)]
      split_ifs with h3
      · exact L.neg_sub a b
      · have h4 : a - b = 0 := le_antisymm h2 (not_lt.1 h3)
        have h5 := L.neg_sub a b
        rw [h4, L.neg_zero] at h5
        rw [h4, h5]
    rcases le_total a b with h | h
    · exact key a b h
    · exact (key b a h).symm
  dist_eq x y := rfl

theorem axis_l2Sq [Mul α] (L : RoundedLaws α) (Q : SquareLaws α) : AxisMetric (metricL2Sq α d) where
  nonneg x := by
    simp only [metricL2Sq, squared]
    rcases le_total 0 x with h | h
    · calc (0 : α) = 0 * 0 := Q.zero_mul_zero.symm
        _ ≤ x * x := Q.mul_mono _ _ le_rfl h
    · rw [← Q.neg_mul_neg]
      have h0 : 0 ≤ -x := by
        rcases h.lt_or_eq with h | h
        · exact (L.neg_pos x h).le
        · rw [h, L.neg_zero]
      calc (0 : α) = 0 * 0 := Q.zero_mul_zero.symm
        _ ≤ -x * -x := Q.mul_mono _ _ le_rfl h0
  mono x y h1 h2 := Q.mul_mono _ _ h1 h2
  symm a b := by
    simp only [metricL2Sq, squared]
    rw [← L.neg_sub, Q.neg_mul_neg]
  dist_eq x y := rfl

end Axis

/-! ## One dimension -/

section OneDim
variable {α : Type} [LinearOrder α] [Zero α] [Add α] [Sub α] [Neg α]

theorem loopSum_one (L : RoundedLaws α) (f : Fin 1 → α) : loopSum f = f 0 := by
  simp [loopSum, List.finRange_succ, L.zero_add]

/-- Exactness in one dimension under rounding, with respect to the computed distances. -/
theorem exactAt_one_dim (L : RoundedLaws α) {M : Metric α 1} (hM : AxisMetric M) {N : Num α}
    {pts : Nat → Pt α 1} {n : Nat} {o : BuildOpts α 1} {fuel : Nat} {T : KdTree α 1 (Branch1 α 1)}
    (h : KdTree.make (euclideanTag α 1) M N pts n o fuel = .ok T) (hR : Representable N pts n o)
    (hn : 0 < n) (q : Pt α 1) : ExactAt T q := by
  obtain ⟨hperm, _, ⟨box, hB⟩, hel⟩ := KdTree.make_built h hR hn
  obtain ⟨h1, h2, h3, h4, h5, _⟩ := KdTree.make_ok h
  have hg := guard_axis L hM q hB [] [] rfl
  simp only [List.nil_append, List.append_nil] at hg
  intro σ V Inv s hV hI
  have hlt : ∀ i ∈ T.data.root.elems T.data.indices, i < T.n := by
    intro i hi
    rw [hel] at hi
    rw [h5]
    exact List.mem_range.1 (hperm.subset hi)
  obtain ⟨vis, skip, hp, he, hk⟩ := searchNearest_spec T.tag.splitDim (T.tag.pick T.metric q) V
    (fun i => T.metric.dist q (T.pts i)) T.data.indices (fun j i => M.one (q j - pts i j))
    (fun D off => D = off 0)
    (fun D off j x h => by
      rw [Subsingleton.elim j 0, h, L.sub_self, L.zero_add]; simp)
    (· < T.n)
    (fun D off i hi hD ho => by
      rw [hD, h2, h4, hM.dist_eq, loopSum_one L]
      exact ho 0)
    Inv hV T.data.root 0 (fun _ => 0, s) hlt (by rw [h1, h2]; exact hg) rfl
    (fun i hi j => hM.nonneg _) hI
  refine ⟨vis, skip, ?_, ?_, ?_⟩
  · rw [hel] at hp
    rw [h5]
    exact hp.trans hperm
  · unfold KdTree.searchNearest searchNearestRoot
    rw [he]
  · unfold KdTree.searchNearest searchNearestRoot
    rw [he]
    exact hk

end OneDim

end Pico
