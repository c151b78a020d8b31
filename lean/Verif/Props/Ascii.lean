import Verif.Props.Uosr
import Verif.Proof.Near
import Mathlib.Tactic.NormNum
import Mathlib.Tactic.Linarith
import Mathlib.Tactic.Positivity
import Mathlib.Data.Rat.Encodable

/-!
# C108: text files and the conversion programs
-/

namespace Pico.Props

open Pico Spec

/-! ## Digits -/

/-- Rounding to `n + 1` significant digits changes a number by at most half a unit in the last place. -/
theorem roundedDecimal_error {n : Nat} {x d : ℚ} (h : RoundedDecimal n x d) : |d - x| ≤ |x| / (2 * 10 ^ n) := by
  obtain ⟨e, m, hd, hx, hm⟩ := h
  rcases hx with ⟨rfl, rfl⟩ | ⟨hx, -⟩
  · simp
  · have hu : (0 : ℚ) < 10 ^ (e - n) := by positivity
    have h1 := hm (roundEven (x / 10 ^ (e - n)))
    have h2 := roundEven_error (x / 10 ^ (e - n))
    have h3 : |(roundEven (x / 10 ^ (e - n)) : ℚ) * 10 ^ (e - n) - x| ≤ 10 ^ (e - n) / 2 := by
      have e1 : (roundEven (x / 10 ^ (e - n)) : ℚ) * 10 ^ (e - n) - x =
          ((roundEven (x / 10 ^ (e - n)) : ℚ) - x / 10 ^ (e - n)) * 10 ^ (e - n) := by
        field_simp
      rw [e1, abs_mul, abs_of_pos hu]
      calc _ ≤ 1 / 2 * (10 : ℚ) ^ (e - n) := mul_le_mul_of_nonneg_right h2 hu.le
        _ = _ := by ring
    have e2 : (10 : ℚ) ^ (e - n) = 10 ^ e / 10 ^ n := by rw [zpow_sub₀ (by norm_num), zpow_natCast]
    refine le_trans h1 (le_trans h3 ?_)
    rw [e2, div_div, mul_comm ((10 : ℚ) ^ n) 2]
    exact div_le_div_of_nonneg_right hx (by positivity)

/-- Every number can be rounded to `n + 1` significant digits. -/
theorem roundedDecimal_exists (n : Nat) (x : ℚ) : ∃ d, RoundedDecimal n x d := by
  rcases eq_or_ne x 0 with rfl | hx
  · exact ⟨0, 0, 0, by simp, Or.inl ⟨rfl, rfl⟩, fun m' => by simp⟩
  · have ha : 0 < |x| := abs_pos.2 hx
    have h1 := Int.zpow_log_le_self (R := ℚ) (b := 10) (by norm_num) ha
    have h2 := Int.lt_zpow_succ_log_self (R := ℚ) (b := 10) (by norm_num) |x|
    push_cast at h1 h2
    refine ⟨roundEven (x / 10 ^ (Int.log 10 |x| - n)) * 10 ^ (Int.log 10 |x| - n), Int.log 10 |x|, _, rfl,
      Or.inr ⟨h1, h2⟩, fun m' => ?_⟩
    generalize hu : (10 : ℚ) ^ (Int.log 10 |x| - n) = u
    have hu0 : 0 < u := by rw [← hu]; positivity
    have key : ∀ r : ℤ, |(r : ℚ) * u - x| = |(r : ℚ) - x / u| * u := by
      intro r
      have e1 : (r : ℚ) * u - x = (r - x / u) * u := by field_simp
      rw [e1, abs_mul, abs_of_pos hu0]
    rw [key, key]
    refine mul_le_mul_of_nonneg_right ?_ hu0.le
    have h3 := roundEven_error (x / u)
    rcases eq_or_ne m' (roundEven (x / u)) with rfl | hne
    · exact le_rfl
    · have h4 : (1 : ℚ) ≤ |(m' : ℚ) - roundEven (x / u)| := by
        have h1 : (1 : ℤ) ≤ |m' - roundEven (x / u)| := Int.one_le_abs (sub_ne_zero.2 hne)
        exact_mod_cast h1
      have h5 := abs_sub_le (m' : ℚ) (x / u) (roundEven (x / u))
      rw [abs_sub_comm (x / u)] at h5
      linarith

/-- C108: a floating point number with `p + 1` significant bits is recovered from `n + 1` decimal digits if
`2^(p + 2) ≤ 10^n`. -/
theorem c108_digits {p n : Nat} {e : ℤ} (hpn : 2 ^ (p + 2) ≤ 10 ^ n) (x : (ieee p e).F) {d : ℚ}
    (h : RoundedDecimal n x.1 d) : (ieee p e).ofK d = x := by
  refine Subtype.ext (ieee_near x.2 (le_trans (roundedDecimal_error h) ?_))
  refine div_le_div_of_nonneg_left (abs_nonneg _) (by positivity) ?_
  have h1 : (2 : ℚ) ^ (p + 2) ≤ 10 ^ n := by exact_mod_cast hpn
  rw [pow_succ (2 : ℚ) (p + 2)]
  linarith

/-- C108: `float` is recovered from the ten digits of `std::setprecision(10)`. -/
theorem c108_float (x : (ieee 23 (-149)).F) {d : ℚ} (h : RoundedDecimal 9 x.1 d) : (ieee 23 (-149)).ofK d = x :=
  c108_digits (by norm_num) x h

/-- C108 is violated for `double`: two numbers have the same ten digits. -/
theorem c108_double_false : ∃ (x y : (ieee 52 (-1074)).F) (d : ℚ), x ≠ y ∧ RoundedDecimal 9 x.1 d ∧
    RoundedDecimal 9 y.1 d := by
  have hx : (ieee 52 (-1074)).rd 1 = 1 := by
    have := ieee_exactUpTo 52 (-1074) (k := 0) (by norm_num) 1 (by norm_num)
    simpa using this
  have hy : (ieee 52 (-1074)).rd (1 + 1 / 2 ^ 52) = 1 + 1 / 2 ^ 52 := by
    have := ieee_exactUpTo 52 (-1074) (k := -52) (by norm_num) (2 ^ 52 + 1) (by norm_num)
    have e1 : (((2 ^ 52 + 1 : ℤ) : ℚ)) * 2 ^ (-52 : ℤ) = 1 + 1 / 2 ^ 52 := by norm_num
    rwa [e1] at this
  have hnear : ∀ z : ℚ, |1 - z| ≤ 1 / 2 * 10 ^ (0 - (9 : Nat) : ℤ) → ∀ m' : ℤ,
      |1 - z| ≤ |m' * 10 ^ (0 - (9 : Nat) : ℤ) - z| := by
    intro z hz m'
    rcases eq_or_ne m' (10 ^ 9) with rfl | hne
    · norm_num
    · have hge : (1 : ℚ) ≤ |(m' : ℚ) - 10 ^ 9| := by
        have h1 : (1 : ℤ) ≤ |m' - 10 ^ 9| := Int.one_le_abs (sub_ne_zero.2 hne)
        exact_mod_cast h1
      have e1 : (m' : ℚ) * 10 ^ (0 - (9 : Nat) : ℤ) - z = (m' - 10 ^ 9) * 10 ^ (0 - (9 : Nat) : ℤ) + (1 - z) := by
        norm_num; ring
      have h2 : (10 : ℚ) ^ (0 - (9 : Nat) : ℤ) ≤ |((m' : ℚ) - 10 ^ 9) * 10 ^ (0 - (9 : Nat) : ℤ)| := by
        rw [abs_mul, abs_of_pos (by positivity : (0 : ℚ) < 10 ^ (0 - (9 : Nat) : ℤ))]
        exact le_mul_of_one_le_left (by positivity) hge
      rw [e1]
      have h3 := abs_sub_abs_le_abs_sub (((m' : ℚ) - 10 ^ 9) * 10 ^ (0 - (9 : Nat) : ℤ)) (-(1 - z))
      rw [sub_neg_eq_add, abs_neg] at h3
      linarith
  refine ⟨⟨1, hx⟩, ⟨1 + 1 / 2 ^ 52, hy⟩, 1, fun h => ?_, ⟨0, 10 ^ 9, by norm_num, Or.inr (by norm_num), ?_⟩,
    ⟨0, 10 ^ 9, by norm_num, Or.inr (by norm_num), ?_⟩⟩
  · have := congrArg Subtype.val h
    norm_num at this
  · exact hnear 1 (by norm_num)
  · exact hnear (1 + 1 / 2 ^ 52) (by norm_num)

/-- The hypotheses of `c108_float`: the ten digits of a third. -/
example : ∃ x : (ieee 23 (-149)).F, ∃ d : ℚ, d ≠ x.1 ∧ RoundedDecimal 9 x.1 d ∧ (ieee 23 (-149)).ofK d = x := by
  have hx : (ieee 23 (-149)).rd (11184811 / 2 ^ 25) = 11184811 / 2 ^ 25 := by
    have := ieee_exactUpTo 23 (-149) (k := -25) (by norm_num) 11184811 (by norm_num)
    have e1 : (((11184811 : ℤ) : ℚ)) * 2 ^ (-25 : ℤ) = 11184811 / 2 ^ 25 := by norm_num
    rwa [e1] at this
  have hd : RoundedDecimal 9 (11184811 / 2 ^ 25) (3333333433 / 10 ^ 10) := by
    refine ⟨-1, 3333333433, by norm_num, Or.inr ⟨by norm_num, by norm_num⟩, fun m' => ?_⟩
    have e1 : ((-1 : ℤ) - (9 : Nat)) = -10 := rfl
    rw [e1]
    rcases le_or_gt m' 3333333432 with h | h
    · have h1 : (m' : ℚ) ≤ 3333333432 := by exact_mod_cast h
      rw [abs_of_nonpos (by norm_num; linarith : (m' : ℚ) * 10 ^ (-10 : ℤ) - 11184811 / 2 ^ 25 ≤ 0)]
      norm_num [abs_le]
      linarith
    · rcases eq_or_lt_of_le (Int.add_one_le_of_lt h) with rfl | h
      · norm_num
      · have h1 : (3333333434 : ℚ) ≤ m' := by exact_mod_cast Int.add_one_le_of_lt h
        refine le_trans ?_ (le_abs_self _)
        norm_num [abs_le]
        linarith
  exact ⟨⟨_, hx⟩, _, by norm_num, hd, c108_float ⟨_, hx⟩ hd⟩

/-! ## Files -/

section Files
variable {γ : Type} {d : Nat}

/-- The line of a point: its coordinates with a space between them. -/
def asciiLine (print : γ → List Char) (p : Pt γ (d + 1)) : List Char :=
  print (p 0) ++ (List.finRange d).flatMap fun i => ' ' :: print (p i.succ)

theorem printPoint_eq (print : γ → List Char) (p : Pt γ (d + 1)) : printPoint print p = asciiLine print p := by
  unfold printPoint asciiLine
  generalize print (p 0) = s
  induction List.finRange d generalizing s with
  | nil => simp
  | cons i l ih => rw [List.foldl_cons, ih]; simp

/-- C108: the file has one line for each point, in order, and nothing else. -/
theorem c108_file (print : γ → List Char) {v : List (Pt γ (d + 1))} (hv : v ≠ []) (file : Option (List Char)) :
    writeAscii print v file = some (v.flatMap fun p => asciiLine print p ++ ['\n']) := by
  have he : v.isEmpty = false := by cases v <;> simp_all
  have key : ∀ (v : List (Pt γ (d + 1))) (s : List Char),
      v.foldl (fun s p => s ++ printPoint print p ++ ['\n']) s =
        s ++ v.flatMap fun p => asciiLine print p ++ ['\n'] := by
    intro v
    induction v with
    | nil => simp
    | cons p v ih => intro s; rw [List.foldl_cons, ih]; simp [printPoint_eq]
  simp only [writeAscii, he, Bool.false_eq_true, if_false]
  rw [key]
  simp

/-- C108 is violated: writing no points leaves what was in the file before. -/
theorem c108_empty (print : γ → List Char) (file : Option (List Char)) :
    writeAscii print ([] : List (Pt γ (d + 1))) file = file := rfl

/-- Words that are followed by a space or a line end are determined by the text. -/
theorem word_append_inj {w w' s s' : List Char} (hw : Word w) (hw' : Word w')
    (hs : ∀ c, s.head? = some c → blank c) (hs' : ∀ c, s'.head? = some c → blank c) (h : w ++ s = w' ++ s') :
    w = w' ∧ s = s' := by
  have h1 := nextToken_word [] (g := []) (by simp) hw hs
  have h2 := nextToken_word [] (g := []) (by simp) hw' hs'
  rw [h] at h1
  rw [h1] at h2
  simpa using h2

theorem line_inj {print : γ → List Char} (hw : ∀ x, Word (print x)) (hinj : ∀ x y, print x = print y → x = y)
    {p q : Pt γ (d + 1)} {s s' : List Char}
    (h : asciiLine print p ++ '\n' :: s = asciiLine print q ++ '\n' :: s') : p = q ∧ s = s' := by
  have key : ∀ (l : List (Fin d)) (s s' : List Char),
      (l.flatMap fun i => ' ' :: print (p i.succ)) ++ '\n' :: s =
        (l.flatMap fun i => ' ' :: print (q i.succ)) ++ '\n' :: s' →
      (∀ i ∈ l, p i.succ = q i.succ) ∧ s = s' := by
    intro l
    induction l with
    | nil => intro s s' h; simpa using h
    | cons i l ih =>
      intro s s' h
      simp only [List.flatMap_cons, List.cons_append, List.append_assoc, List.cons.injEq, true_and] at h
      have hb : ∀ (r : Pt γ (d + 1)) (t : List Char) (c : Char),
          ((l.flatMap fun i => ' ' :: print (r i.succ)) ++ '\n' :: t).head? = some c → blank c := by
        intro r t c hc
        cases l with
        | nil => simp at hc; subst hc; simp [blank]
        | cons j l => simp at hc; subst hc; simp [blank]
      obtain ⟨h1, h2⟩ := word_append_inj (hw _) (hw _) (hb p s) (hb q s') h
      obtain ⟨h3, h4⟩ := ih s s' h2
      refine ⟨fun j hj => ?_, h4⟩
      rcases List.mem_cons.1 hj with rfl | hj
      · exact hinj _ _ h1
      · exact h3 j hj
  unfold asciiLine at h
  rw [List.append_assoc, List.append_assoc] at h
  have hb : ∀ (r : Pt γ (d + 1)) (t : List Char) (c : Char),
      (((List.finRange d).flatMap fun i => ' ' :: print (r i.succ)) ++ '\n' :: t).head? = some c → blank c := by
    intro r t c hc
    cases hl : List.finRange d with
    | nil => rw [hl] at hc; simp at hc; subst hc; simp [blank]
    | cons j l => rw [hl] at hc; simp at hc; subst hc; simp [blank]
  obtain ⟨h1, h2⟩ := word_append_inj (hw _) (hw _) (hb p s) (hb q s') h
  obtain ⟨h3, h4⟩ := key _ s s' h2
  refine ⟨funext fun i => ?_, h4⟩
  refine Fin.cases (hinj _ _ h1) (fun i => h3 i (List.mem_finRange i)) i

/-- C108: if numbers are printed as words and different numbers as different words, the file determines the points.
Missing: `double` is not printed like this (`c108_double_false`), and the file of an empty vector is not written
(`c108_empty`). -/
theorem c108_injective_partial {print : γ → List Char} (hw : ∀ x, Word (print x))
    (hinj : ∀ x y, print x = print y → x = y) {v v' : List (Pt γ (d + 1))} (hv : v ≠ []) (hv' : v' ≠ [])
    {file file' : Option (List Char)} (h : writeAscii print v file = writeAscii print v' file') : v = v' := by
  rw [c108_file print hv, c108_file print hv', Option.some.injEq] at h
  clear hv hv'
  induction v generalizing v' with
  | nil =>
    cases v' with
    | nil => rfl
    | cons q v' =>
      have := congrArg List.length h
      simp at this
  | cons p v ih =>
    cases v' with
    | nil =>
      have := congrArg List.length h
      simp at this
    | cons q v' =>
      simp only [List.flatMap_cons, List.append_assoc, List.cons_append, List.nil_append] at h
      obtain ⟨h1, h2⟩ := line_inj hw hinj h
      rw [h1, ih h2]

end Files

/-- C108 for `float`: whenever numbers are printed as words that stand for their ten digits, the file determines the
points. -/
theorem c108_float_file {d : Nat} {print : (ieee 23 (-149)).F → List Char} {value : List Char → ℚ}
    (hw : ∀ x, Word (print x)) (hval : ∀ x, RoundedDecimal 9 x.1 (value (print x)))
    {v v' : List (Pt (ieee 23 (-149)).F (d + 1))} (hv : v ≠ []) (hv' : v' ≠ []) {file file' : Option (List Char)}
    (h : writeAscii print v file = writeAscii print v' file') : v = v' :=
  c108_injective_partial hw (fun x y e => by rw [← c108_float x (hval x), e, c108_float y (hval y)]) hv hv' h

/-- The hypotheses of `c108_float_file` can be met: words of different lengths for different numbers. -/
example : ∃ (print : (ieee 23 (-149)).F → List Char) (value : List Char → ℚ),
    (∀ x, Word (print x)) ∧ ∀ x, RoundedDecimal 9 x.1 (value (print x)) := by
  refine ⟨fun x => List.replicate (Encodable.encode x.1 + 1) '1',
    fun w => (Encodable.decode (α := ℚ) (w.length - 1)).elim 0 fun x => (roundedDecimal_exists 9 x).choose,
    fun x => ⟨by simp, fun c hc => ?_⟩, fun x => ?_⟩
  · rw [List.eq_of_mem_replicate hc]
    simp [blank]
  · simp only [List.length_replicate, Nat.add_sub_cancel, Encodable.encodek, Option.elim_some]
    exact (roundedDecimal_exists 9 x.1).choose_spec

/-- The hypotheses of `c108_injective_partial`, for bits. -/
example {v v' : List (Pt Bool 2)} (hv : v ≠ []) (hv' : v' ≠ [])
    (h : writeAscii (fun b => [if b then '1' else '0']) v none =
      writeAscii (fun b => [if b then '1' else '0']) v' none) : v = v' :=
  c108_injective_partial (by rintro (_ | _) <;> simp [Word, blank]) (by decide) hv hv' h

/-! ## The programs -/

section Programs
variable {γ : Type}

/-- C108: without `scans.bin` and `scans.txt`, the two programs one after the other write the points of the scans as
text, provided that there are points. -/
theorem c108_programs_partial {c : Codec (Pt γ 3)} (hc : 0 < c.size) (pad : Nat → Byte) (print : γ → List Char)
    {v : List (Pt γ 3)} (hne : v ≠ []) (hv : ∀ x ∈ v, c.Good x) (entries : List DirEntry) :
    ∃ f bytes, uosrToBin pad c (.ok v) ⟨entries, none, none⟩ = .done f ∧
      binToAscii c print f = .done ⟨entries, some bytes, some (v.flatMap fun p => asciiLine print p ++ ['\n'])⟩ := by
  have h1 := c74_round_trip_partial hc hv hne pad none
  cases hb : writeBin pad c v none with
  | none =>
    rw [hb] at h1
    simp [readBin] at h1
  | some bytes =>
    rw [hb] at h1
    refine ⟨⟨entries, some bytes, none⟩, bytes, by simp only [uosrToBin, hb], ?_⟩
    simp only [binToAscii, h1]
    rw [c108_file print hne]

/-- C108: without points no file is written. -/
theorem c108_no_points (c : Codec (Pt γ 3)) (pad : Nat → Byte) (print : γ → List Char) (entries : List DirEntry) :
    uosrToBin pad c (.ok []) ⟨entries, none, none⟩ = .done ⟨entries, none, none⟩ ∧
    binToAscii c print ⟨entries, none, none⟩ = .done ⟨entries, none, none⟩ := ⟨rfl, rfl⟩

/-- C108 is violated: files that are there already are kept, whatever the scans are now. -/
theorem c108_stale (c : Codec (Pt γ 3)) (pad : Nat → Byte) (print : γ → List Char)
    (points : ScanRead (List (Pt γ 3))) (entries : List DirEntry) (bytes : List Byte) (text : List Char) :
    uosrToBin pad c points ⟨entries, some bytes, none⟩ = .done ⟨entries, some bytes, none⟩ ∧
    binToAscii c print ⟨entries, some bytes, some text⟩ = .done ⟨entries, some bytes, some text⟩ := ⟨rfl, rfl⟩

end Programs

/-- Three numbers of one byte each. -/
def threeBytes : Codec (Pt Nat 3) where
  size := 3
  align := 1
  enc _ p := [UInt8.ofNat (p 0), UInt8.ofNat (p 1), UInt8.ofNat (p 2)]
  dec
    | [a, b, c] => some ![a.toNat, b.toNat, c.toNat]
    | _ => none

/-- The text file that the second program leaves. -/
def textOf : Program → Option (List Char)
  | .done f => f.txt
  | _ => none

/-- Both programs one after the other. -/
example : (match uosrToBin (fun _ => 0) threeBytes (.ok [![1, 2, 30], ![4, 5, 6]]) ⟨[], none, none⟩ with
    | .done f => textOf (binToAscii threeBytes (fun n => (toString n).toList) f)
    | _ => none) = some "1 2 30\n4 5 6\n".toList := by decide +kernel

/-- The text of two points, numbers being printed by `toString`. -/
example : writeAscii (d := 2) (fun n : Int => (toString n).toList) [![1, -2, 30], ![4, 5, 6]] none =
    some "1 -2 30\n4 5 6\n".toList := by decide +kernel

end Pico.Props
