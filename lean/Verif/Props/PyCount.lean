import Verif.Model.PyCount
import Verif.Props.Python

/-!
# C118: `search_knn` from Python with any integer `k`
-/

namespace Pico.Props

open Pico Spec

variable {α τ : Type} {d : Nat}

theorem asUnsigned_natCast {k : Nat} (h : k < 2 * half64) :
    asUnsigned (k : Int) = k ∧ asUnsignedFails (k : Int) = false := by
  have h1 : (0 : Int) ≤ (k : Int) ∧ (k : Int) < 2 * half64 := by omega
  refine ⟨?_, ?_⟩
  · unfold asUnsigned
    rw [if_pos h1]
    rfl
  · simp only [asUnsignedFails, h1, decide_true, Bool.not_true, and_self]

theorem toSigned_small {x : Nat} (h : x < half64) : toSigned x = x := if_pos h

theorem toSigned_neg {x : Nat} (h : half64 ≤ x) (h2 : x < 2 * half64) : toSigned x < 0 := by
  unfold toSigned
  rw [if_neg (by omega)]
  omega

/-- `resize` when the sizes are not negative. -/
theorem resizeChecked_nat (cap : Nat) (zero : τ) (a : NArray τ) (shape : List Nat) (h : ∀ x ∈ shape, x < half64) :
    a.resizeChecked cap zero (shape.map toSigned) = if cap < shape.prod then .throws else a.resize zero shape := by
  have hmap : (shape.map toSigned).map Int.toNat = shape := by
    rw [List.map_map]
    conv_rhs => rw [← List.map_id shape]
    refine List.map_congr_left fun x hx => ?_
    simp only [Function.comp, toSigned_small (h x hx), Int.toNat_natCast, id]
  unfold NArray.resizeChecked
  rw [if_neg, hmap]
  simp only [List.any_map, List.any_eq_true, Function.comp, decide_eq_true_eq, not_exists, not_and, not_lt]
  intro x hx
  rw [toSigned_small (h x hx)]
  omega

/-- `resize` with a negative size. -/
theorem resizeChecked_neg (cap : Nat) (zero : τ) (a : NArray τ) (shape : List Nat) {x : Nat} (hx : x ∈ shape)
    (h : half64 ≤ x) (h2 : x < 2 * half64) : a.resizeChecked cap zero (shape.map toSigned) = .throws := by
  unfold NArray.resizeChecked
  rw [if_pos]
  simp only [List.any_map, List.any_eq_true, Function.comp, decide_eq_true_eq]
  exact ⟨x, hx, toSigned_neg h h2⟩

/-- `ensure_size` when the number of results fits. -/
theorem ensureSize64_eq (cap : Nat) (zero : τ) (n k : Nat) (rm : Bool) (nns : NArray τ) (hn : 0 < n)
    (hcap : cap < half64) (hnk : n * k < 2 * half64) (hn63 : n < half64) (hnn : nns.shape.prod < half64) :
    ensureSize64 cap zero n rm k nns =
      if nns.shape.prod ≠ n * k ∧ cap < n * k then .throws else ensureSize zero n rm k nns := by
  have hsz : ((nns.shape.prod : Int) ≠ toSigned (n * k)) ↔ nns.shape.prod ≠ n * k := by
    unfold toSigned
    split <;> omega
  have hle := Nat.le_mul_of_pos_left k hn
  unfold ensureSize64 ensureSize
  rw [Nat.mod_eq_of_lt hnk]
  by_cases h3 : nns.shape.prod ≠ n * k
  · rw [if_pos (hsz.2 h3), if_pos h3]
    have key : ∀ shape : List Nat, shape.prod = n * k → (∀ x ∈ shape, x = n ∨ x = k) →
        nns.resizeChecked cap zero (shape.map toSigned) =
          if nns.shape.prod ≠ n * k ∧ cap < n * k then .throws else nns.resize zero shape := by
      intro shape hs hx
      by_cases hk : ∀ x ∈ shape, x < half64
      · rw [resizeChecked_nat cap zero nns shape hk, hs]
        by_cases hc : cap < n * k
        · rw [if_pos hc, if_pos ⟨h3, hc⟩]
        · rw [if_neg hc, if_neg fun h => hc h.2]
      · push Not at hk
        obtain ⟨x, hx1, hx2⟩ := hk
        rcases hx x hx1 with rfl | rfl
        · omega
        · rw [resizeChecked_neg cap zero nns shape hx1 hx2 (by omega), if_pos ⟨h3, by omega⟩]
    by_cases h5 : k = 1
    · rw [if_pos h5, if_pos h5]
      exact key [n] (by simp [h5]) (by simp)
    · rw [if_neg h5, if_neg h5]
      cases rm
      · exact key [k, n] (by simp [Nat.mul_comm]) (by simp)
      · exact key [n, k] (by simp) (by simp)
  · rw [if_neg (fun h => h3 (hsz.1 h)), if_neg h3, if_neg fun h => h3 h.1]

/-- The loop as long as no offset wraps around. -/
theorem forRange_knn64 (search : Pt α d → List τ → Outcome (List τ)) (q : SpaceMap α) (k : Nat) (output : Int)
    (n : Nat) (hn : n * k < 2 * half64 + k) (buf : List τ) :
    forRange n (knnStep64 search q k output) buf = forRange n (knnStep search q k output) buf := by
  induction n with
  | zero => rfl
  | succ n ih =>
    rw [Nat.succ_mul] at hn
    rw [forRange_succ, forRange_succ, ih (by omega)]
    congr 1
    funext b
    simp only [knnStep64, knnStep, Nat.mod_eq_of_lt (show n * k < 2 * half64 by omega)]
    cases q.point d n <;> cases memSlice b (output + ((n * k : Nat) : Int)) k <;> rfl

theorem forRange_ub (n m : Nat) (step : Nat → List τ → Call (List τ)) (buf : List τ)
    (h : forRange n step buf = .ub) : forRange (n + m) step buf = .ub := by
  induction m with
  | zero => exact h
  | succ m ih => rw [← Nat.add_assoc, forRange_succ, ih]; rfl

/-- An offset behind the end is reached when the output is smaller than it has to be. -/
theorem forRange_knn64_ub (search : Pt α d → List τ → Outcome (List τ)) (q : SpaceMap α) (k base n : Nat)
    (xs : Nat → Pt α d) (hq : ∀ i < n, q.point d i = some (xs i)) (hs : Fills search k) (buf : List τ)
    (hk : 0 < k) (hb : base ≤ buf.length) (hl : buf.length < base + n * k) (h64 : buf.length < 2 * half64) :
    forRange n (knnStep64 search q k base) buf = .ub := by
  set i := (buf.length - base) / k with hi
  have h1 := Nat.div_add_mod (buf.length - base) k
  have h2 := Nat.mod_lt (buf.length - base) hk
  rw [← hi, Nat.mul_comm] at h1
  have h3 : i < n := by
    by_contra hc
    have : n * k ≤ i * k := Nat.mul_le_mul_right k (by omega)
    omega
  have h4 : forRange (i + 1) (knnStep64 search q k base) buf = .ub := by
    rw [forRange_succ, forRange_knn64 search q k base i (by omega)]
    obtain ⟨out, g1, g2, -, -⟩ := forRange_knn search q k base xs i (fun j hj => hq j (by omega)) buf (by omega)
      fun j _ => hs (xs j)
    rw [g1]
    simp only [Call.bind, knnStep64, hq i h3, Nat.mod_eq_of_lt (show i * k < 2 * half64 by omega)]
    have : memSlice out ((base : Int) + ((i * k : Nat) : Int)) k = none := by
      unfold memSlice
      rw [if_neg]
      rintro ⟨-, h⟩
      have e : (base : Int) + ((i * k : Nat) : Int) = ((base + i * k : Nat) : Int) := by push_cast; ring
      rw [e, Int.toNat_natCast] at h
      omega
    rw [this]
  obtain ⟨m, rfl⟩ : ∃ m, n = i + 1 + m := ⟨n - (i + 1), by omega⟩
  exact forRange_ub _ _ _ _ h4

section
variable {Dim : Option Nat} {scalarT neighborT : DType} {zero : τ}
  {search : Pt α d → List τ → Outcome (List τ)} {pts : NArray α} {k n cap : Nat} {nns : NArray τ}
  (hv : Valid pts) (hp : Points pts n d) (hD : Dim = none ∨ Dim = some d)
include hv hp hD

/-- C118 (partial: all results together have fewer than 2^64 entries): the call does what the call with numbers of any
size does, or it raises because memory is short. Nothing is written outside of the output as long as that call does
not. -/
theorem c118_same_partial (hn : 0 < n) (hcap : cap < half64) (hnk : n * k < 2 * half64) (hn63 : n < half64)
    (hnn : nns.shape.prod < half64) :
    pyKnnInto64 cap Dim scalarT neighborT zero search pts k nns =
      if nns.shape.prod ≠ n * k ∧ cap < n * k then .throws
      else pyKnnInto Dim scalarT neighborT zero search pts k nns := by
  have hk : k < 2 * half64 := lt_of_le_of_lt (Nat.le_mul_of_pos_left k hn) hnk
  obtain ⟨hu1, hu2⟩ := asUnsigned_natCast hk
  obtain ⟨q, hq, hq1, hq2, hq3, -⟩ := makeMap_of_points (Dim := Dim) hv hp hD
  unfold pyKnnInto64 pyKnnInto
  by_cases h1 : pts.dtype ≠ scalarT
  · simp only [if_pos h1, ite_self]
  rw [if_neg h1, if_neg h1]
  by_cases h2 : nns.dtype ≠ neighborT
  · simp only [if_pos h2, ite_self]
  rw [if_neg h2, if_neg h2, hq]
  have e : ∀ {υ ω : Type} (x : υ) (f : υ → Call ω), (Call.ok x).bind f = f x := fun _ _ => rfl
  rw [e, e, hu1, hu2, hq1, ensureSize64_eq cap zero n k q.rowMajor nns hn hcap hnk hn63 hnn]
  by_cases hc : nns.shape.prod ≠ n * k ∧ cap < n * k
  · rw [if_pos hc, if_pos hc]
    rfl
  · rw [if_neg hc, if_neg hc]
    congr 1
    funext b
    simp only [forRange_knn64 search q k b.base n (by omega) b.buf, Bool.false_eq_true, if_false]

/-- C118 (partial): with a new output and fewer than 2^64 results, the call raises or gives the results of the single
queries. -/
theorem c118_partial (hst : pts.dtype = scalarT) (hs : Fills search k) (hn : 0 < n) (hcap : cap < half64)
    (hnk : n * k < 2 * half64) (hn63 : n < half64) :
    (pyKnn64 cap Dim scalarT neighborT zero search pts k = .throws ∧ cap < n * k) ∨
    ∃ out, pyKnn64 cap Dim scalarT neighborT zero search pts k = .ok out ∧ out.base = 0 ∧
      out.buf.length = n * k ∧ ∀ i < n, ∀ x, IsPoint pts i x →
        ∃ r, search x (List.replicate k zero) = .ok r ∧ r.length = k ∧
          ∀ j < k, out.buf[i * k + j]? = r[j]? := by
  unfold pyKnn64
  rw [c118_same_partial hv hp hD hn hcap hnk hn63 (by have := half64_big; simp [NArray.default]; omega)]
  split
  · rename_i h
    exact .inl ⟨rfl, h.2⟩
  · exact .inr (c33_knn hv hp hD hst hs)

/-- C118: integers that do not fit into 64 bits, in particular negative ones, raise. -/
theorem c118_range {v : Int} (hvr : v < 0 ∨ 2 * (half64 : Int) ≤ v) (hn63 : n < half64) :
    pyKnnInto64 cap Dim scalarT neighborT zero search pts v nns = .throws := by
  have hbig := half64_big
  have hu1 : asUnsigned v = 2 * half64 - 1 := by
    unfold asUnsigned
    rw [if_neg (by omega)]
  have hu2 : asUnsignedFails v = true := by
    simp only [asUnsignedFails, Bool.not_eq_true', decide_eq_false_iff_not]
    omega
  obtain ⟨q, hq, hq1, hq2, hq3, -⟩ := makeMap_of_points (Dim := Dim) hv hp hD
  have e : ∀ {υ ω : Type} (x : υ) (f : υ → Call ω), (Call.ok x).bind f = f x := fun _ _ => rfl
  have hr : ∀ rm : Bool, nns.resizeChecked cap zero (if rm = true then [toSigned n, toSigned (2 * half64 - 1)]
      else [toSigned (2 * half64 - 1), toSigned n]) = .throws := by
    rintro (_ | _)
    · exact resizeChecked_neg cap zero nns [2 * half64 - 1, n] (x := 2 * half64 - 1) (by simp) (by omega) (by omega)
    · exact resizeChecked_neg cap zero nns [n, 2 * half64 - 1] (x := 2 * half64 - 1) (by simp) (by omega) (by omega)
  unfold pyKnnInto64
  by_cases h1 : pts.dtype ≠ scalarT
  · rw [if_pos h1]
  rw [if_neg h1]
  by_cases h2 : nns.dtype ≠ neighborT
  · rw [if_pos h2]
  rw [if_neg h2, hq, e, hu1, hu2, hq1]
  unfold ensureSize64
  by_cases h3 : (nns.shape.prod : Int) ≠ toSigned (n * (2 * half64 - 1) % (2 * half64))
  · rw [if_pos h3, if_neg (by omega), hr]
    rfl
  · rw [if_neg h3, e]
    rcases Nat.eq_zero_or_pos n with rfl | hn
    · split
      · rfl
      · simp [hq2, forRange, Call.bind]
    · exfalso
      have hmod : n * (2 * half64 - 1) % (2 * half64) = 2 * half64 - n := by
        have h4 : n * (2 * half64 - 1) = (2 * half64 - n) + 2 * half64 * (n - 1) := by
          obtain ⟨m, rfl⟩ : ∃ m, n = m + 1 := ⟨n - 1, by omega⟩
          obtain ⟨c, hc⟩ : ∃ c, 2 * half64 = c + 1 + m := ⟨2 * half64 - 1 - m, by omega⟩
          rw [hc, show c + 1 + m - 1 = c + m by omega, show c + 1 + m - (m + 1) = c by omega, Nat.add_sub_cancel]
          ring
        rw [h4, Nat.add_mul_mod_self_left, Nat.mod_eq_of_lt (by omega)]
      rw [hmod] at h3
      have := toSigned_neg (x := 2 * half64 - n) (by omega) (by omega)
      omega

/-- C118 is false: with 2^64 results or more and an output whose size is that number modulo 2^64, the output is not
resized and the results are written behind its end. -/
theorem c118_overflow_false (hst : pts.dtype = scalarT) (hnt : nns.dtype = neighborT) (hw : nns.writeable = true)
    {b : Nat} (hb : nns.base = b) (hbl : b ≤ nns.buf.length) (hl : nns.buf.length < 2 * half64) (hs : Fills search k)
    (hk : 0 < k) (hk64 : k < 2 * half64) (hnk : 2 * half64 ≤ n * k) (hsz : nns.shape.prod = n * k % (2 * half64))
    (hnn : nns.shape.prod < half64) :
    pyKnnInto64 cap Dim scalarT neighborT zero search pts k nns = .ub := by
  obtain ⟨hu1, hu2⟩ := asUnsigned_natCast hk64
  obtain ⟨q, hq, hq1, hq2, hq3, -, -, hq6⟩ := makeMap_of_points (Dim := Dim) hv hp hD
  choose xs hxs _ using hq6
  have e : ∀ {υ ω : Type} (x : υ) (f : υ → Call ω), (Call.ok x).bind f = f x := fun _ _ => rfl
  have hn : 0 < n := by
    rcases Nat.eq_zero_or_pos n with rfl | h
    · have := half64_big
      omega
    · exact h
  unfold pyKnnInto64
  rw [if_neg (by simpa using hst), if_neg (by simpa using hnt), hq, e, hu1, hu2, hq1]
  unfold ensureSize64
  rw [← hsz, toSigned_small hnn, if_neg (by simp), e, hw, if_neg (by simp), if_neg (by simpa using hq2), hb,
    forRange_knn64_ub search q k b n (fun i => if h : i < n then xs i h else xs 0 hn)
      (fun i hi => by simp [hi, hxs i hi]) hs nns.buf hk hbl (by omega) hl]
  rfl

/-- C118 is false for a new output, too: if the number of results is a multiple of 2^64, the output stays empty. -/
theorem c118_false (hst : pts.dtype = scalarT) (hs : Fills search k) (hk : 0 < k) (hk64 : k < 2 * half64)
    (hn : 0 < n) (hmod : n * k % (2 * half64) = 0) :
    pyKnn64 cap Dim scalarT neighborT zero search pts k = .ub := by
  have hbig := half64_big
  have hpos : 0 < n * k := by positivity
  have hge : 2 * half64 ≤ n * k := Nat.le_of_dvd hpos (Nat.dvd_of_mod_eq_zero hmod)
  exact c118_overflow_false hv hp hD hst rfl rfl (b := 0) rfl (by simp) (by simp [NArray.default]; omega) hs hk hk64 hge
    (by rw [hmod]; rfl) (by simp [NArray.default]; omega)

end

/-- Two query points on the plane. -/
def twoPoints : NArray Int := ⟨.float32, [2, 2], [2, 1], 0, [1, 0, 5, 5], true, true⟩

/-- `tree.search_knn(two_points, 2 ** 63)`, whatever the tree: the product 2 * 2^63 is 0 as a `size_t`. -/
theorem c118_example {β : Type} (T : KdTree Int 2 β) (cap : Nat) :
    pyKnn64 cap (some 2) .float32 .neighborF ⟨0, 0⟩ T.searchKnnRange twoPoints (2 ^ 63) = .ub := by
  have hv : Valid twoPoints := valid_two rfl rfl (by decide) (by decide)
  have hp : Points twoPoints 2 2 := .inl ⟨by decide, rfl⟩
  have h := c118_false (cap := cap) (k := half64) (neighborT := .neighborF) (zero := (⟨0, 0⟩ : Neighbor Int)) hv hp
    (.inr rfl) rfl (fills_knn T (by have := half64_big; omega)) (by have := half64_big; omega)
    (by have := half64_big; omega) (by omega) (by simp)
  rw [half64_eq] at h
  exact_mod_cast h

/-- The hypotheses of `c118_partial`: three neighbors of each of the two points. -/
example {β : Type} (T : KdTree Int 2 β) :
    ∃ out, pyKnn64 1000 (some 2) .float32 .neighborF ⟨0, 0⟩ T.searchKnnRange twoPoints 3 = .ok out ∧
      out.buf.length = 6 := by
  have hv : Valid twoPoints := valid_two rfl rfl (by decide) (by decide)
  have hp : Points twoPoints 2 2 := .inl ⟨by decide, rfl⟩
  have hh : half64 = 2 ^ 63 := half64_eq
  rcases c118_partial (cap := 1000) (k := 3) (neighborT := .neighborF) (zero := (⟨0, 0⟩ : Neighbor Int)) hv hp
    (.inr rfl) rfl (fills_knn T (by omega)) (by omega) (by omega) (by omega) (by omega) with ⟨-, h⟩ | ⟨out, h1, -, h2, -⟩
  · omega
  · exact ⟨out, h1, h2⟩

/-- `tree.search_knn(two_points, -1)` raises. -/
example {β : Type} (T : KdTree Int 2 β) (cap : Nat) :
    pyKnn64 cap (some 2) .float32 .neighborF ⟨0, 0⟩ T.searchKnnRange twoPoints (-1) = .throws :=
  c118_range (valid_two rfl rfl (by decide) (by decide)) (.inl ⟨by decide, rfl⟩) (.inr rfl) (.inl (by omega))
    (by have := half64_eq; omega)

end Pico.Props
