import Verif.Model.Formats
import Verif.SpecFormats
import Verif.Proof.Stream
import Mathlib.Tactic.Ring
import Mathlib.Data.List.GetD
import Mathlib.Data.List.TakeWhile

/-! # Lemmas about the file formats of the examples -/

namespace Pico

open Spec

/-! ## Byte order -/

theorem bigEndian_length (w v : Nat) : (bigEndian w v).length = w := by simp [bigEndian]

theorem bigEndian_getD {w v i : Nat} (hi : i < w) :
    ((bigEndian w v).getD i 0).toNat = v / 256 ^ (w - 1 - i) % 256 := by
  have h : (bigEndian w v)[i]? = some (UInt8.ofNat (v / 256 ^ (w - 1 - i) % 256)) := by
    simp [bigEndian, hi]
  rw [List.getD_eq_getElem?_getD, h]
  simp

theorem foldl_or_getLsbD {m : Nat} (f : Nat → BitVec m) (l : List Nat) (a : BitVec m) (j : Nat) :
    (l.foldl (fun x i => x ||| f i) a).getLsbD j = (a.getLsbD j || l.any fun i => (f i).getLsbD j) := by
  induction l generalizing a with
  | nil => simp
  | cons i l ih => simp [ih, BitVec.getLsbD_or, Bool.or_assoc]

/-- Bit `j` of the result is bit `j % 8` of byte `j / 8`, counted from the end. -/
theorem bigEndianToNative_bit {w : Nat} (hw : w ≤ 8) (bs : List Byte) {j : Nat} (hj : j < 8 * w) :
    (bigEndianToNative w bs).getLsbD j = (bs.getD (w - 1 - j / 8) 0).toNat.testBit (j % 8) := by
  unfold bigEndianToNative
  rw [foldl_or_getLsbD]
  have hz : (0 : BitVec (8 * w)).getLsbD j = false := by simp
  rw [hz, Bool.false_or, Bool.eq_iff_iff, List.any_eq_true]
  have hlt : ∀ i, (bs.getD i 0).toNat < 2 ^ 8 := fun i => (bs.getD i 0).toNat_lt
  constructor
  · rintro ⟨i, hi, h⟩
    rw [List.mem_range] at hi
    simp only [BitVec.getLsbD_setWidth, BitVec.getLsbD_shiftLeft, BitVec.getLsbD_ofNat, Bool.and_eq_true,
      decide_eq_true_eq, Bool.not_eq_true', decide_eq_false_iff_not] at h
    obtain ⟨_, ⟨_, h1⟩, _, h2⟩ := h
    have h3 : j - (w - 1 - i) * 8 < 8 := by
      by_contra hc
      rw [Nat.testBit_lt_two_pow (lt_of_lt_of_le (hlt i) (Nat.pow_le_pow_right (by omega) (by omega)))] at h2
      exact Bool.noConfusion h2
    have h4 : w - 1 - j / 8 = i := by omega
    have h5 : j - (w - 1 - i) * 8 = j % 8 := by omega
    rw [h4, ← h5]
    exact h2
  · intro h
    refine ⟨w - 1 - j / 8, List.mem_range.2 (by omega), ?_⟩
    simp only [BitVec.getLsbD_setWidth, BitVec.getLsbD_shiftLeft, BitVec.getLsbD_ofNat, Bool.and_eq_true,
      decide_eq_true_eq, Bool.not_eq_true', decide_eq_false_iff_not]
    have h5 : j - (w - 1 - (w - 1 - j / 8)) * 8 = j % 8 := by omega
    rw [h5]
    exact ⟨hj, ⟨by omega, by omega⟩, by omega, h⟩

theorem bigEndianToNative_bigEndian {w : Nat} (hw : w ≤ 8) (v : Nat) :
    bigEndianToNative w (bigEndian w v) = BitVec.ofNat (8 * w) v := by
  apply BitVec.eq_of_getLsbD_eq
  intro j hj
  rw [bigEndianToNative_bit hw _ hj, bigEndian_getD (by omega), BitVec.getLsbD_ofNat]
  have e : 256 ^ (w - 1 - (w - 1 - j / 8)) = 2 ^ (8 * (j / 8)) := by
    rw [show (256 : Nat) = 2 ^ 8 from rfl, ← Nat.pow_mul]
    congr 2
    omega
  rw [e, show (256 : Nat) = 2 ^ 8 from rfl, Nat.testBit_mod_two_pow, Nat.testBit_div_two_pow]
  have h1 : j % 8 < 8 := Nat.mod_lt _ (by omega)
  have h2 : j % 8 + 8 * (j / 8) = j := by omega
  simp [h1, h2, hj]

theorem bigEndianToNative_injective {w : Nat} (hw : w ≤ 8) {a b : List Byte} (ha : a.length = w)
    (hb : b.length = w) (h : bigEndianToNative w a = bigEndianToNative w b) : a = b := by
  apply List.ext_getElem (by omega)
  intro i h1 h2
  apply UInt8.toNat_inj.1
  apply Nat.eq_of_testBit_eq
  intro k
  by_cases hk : k < 8
  · have hj : 8 * (w - 1 - i) + k < 8 * w := by omega
    have hx := bigEndianToNative_bit hw a hj
    have hy := bigEndianToNative_bit hw b hj
    rw [h] at hx
    have e1 : w - 1 - (8 * (w - 1 - i) + k) / 8 = i := by omega
    have e2 : (8 * (w - 1 - i) + k) % 8 = k := by omega
    rw [e1, e2] at hx hy
    rw [List.getD_eq_getElem _ _ h1] at hx
    rw [List.getD_eq_getElem _ _ h2] at hy
    rw [← hx, ← hy]
  · have : ∀ x : UInt8, x.toNat.testBit k = false := fun x =>
      Nat.testBit_lt_two_pow (lt_of_lt_of_le x.toNat_lt (Nat.pow_le_pow_right (by omega) (by omega)))
    rw [this, this]

theorem swapEndian_eq (bs : List Byte) : swapEndian bs = bs.reverse := by
  unfold swapEndian
  apply List.ext_getElem (by simp)
  intro i h1 h2
  simp at h1
  rw [List.getElem_map, List.getElem_range, List.getElem_reverse, List.getD_eq_getElem _ _ (by omega)]
  congr 1
  omega

theorem leValue_append (a b : List Byte) : leValue (a ++ b) = leValue a + 256 ^ a.length * leValue b := by
  induction a with
  | nil => simp [leValue]
  | cons x a ih =>
    simp only [List.cons_append, leValue, ih, List.length_cons, Nat.pow_succ]
    ring

theorem leValue_reverse (bs : List Byte) : leValue bs.reverse = bigEndianValue bs := by
  induction bs with
  | nil => rfl
  | cons b l ih =>
    rw [List.reverse_cons, leValue_append, ih, List.length_reverse]
    simp only [leValue, bigEndianValue]
    ring

theorem bigEndianValue_lt (bs : List Byte) : bigEndianValue bs < 256 ^ bs.length := by
  rw [← leValue_reverse, ← List.length_reverse]
  exact leValue_lt _

theorem bigEndian_value (bs : List Byte) : bigEndian bs.length (bigEndianValue bs) = bs := by
  induction bs with
  | nil => rfl
  | cons b l ih =>
    unfold bigEndian at ih ⊢
    simp only [List.length_cons, List.ofFn_succ]
    have hlt := bigEndianValue_lt l
    have hp : 0 < 256 ^ l.length := Nat.pow_pos (by omega)
    congr 1
    · have hb : b.toNat < 256 := b.toNat_lt
      simp only [bigEndianValue, Fin.val_zero]
      have e : l.length + 1 - 1 - 0 = l.length := by omega
      rw [e, Nat.add_comm, Nat.add_mul_div_right _ _ hp, Nat.div_eq_of_lt hlt, Nat.zero_add, Nat.mod_eq_of_lt hb]
      simp
    · conv_rhs => rw [← ih]
      congr 1
      funext i
      simp only [bigEndianValue, Fin.val_succ]
      have e : l.length + 1 - 1 - (i.val + 1) = l.length - 1 - i.val := by omega
      rw [e]
      have e2 : (256 : Nat) ^ l.length = 256 * 256 ^ (i.val) * 256 ^ (l.length - 1 - i.val) := by
        rw [Nat.mul_assoc, ← Nat.pow_add, Nat.mul_comm, ← Nat.pow_succ]
        congr 1
        omega
      rw [e2, ← Nat.mul_assoc, Nat.add_comm, Nat.add_mul_div_right _ _ (Nat.pow_pos (by omega))]
      congr 1
      rw [← Nat.mul_assoc, Nat.mul_right_comm, Nat.add_mul_mod_self_right]

/-! ## Arrays -/

section
variable {τ : Type}

theorem writeArray_length {c : Codec τ} {v : List τ} (h : ∀ x ∈ v, c.Good x) (pad : Nat → Byte)
    (out : List Byte) : (writeArray pad c v out).length = out.length + v.length * c.size := by
  induction v generalizing out with
  | nil => simp [writeArray]
  | cons x v ih =>
    have := ih (fun y hy => h y (by simp [hy])) (writeValue pad c x out)
    simp only [writeArray, List.foldl_cons] at this ⊢
    rw [this]
    simp only [writeValue, List.length_append, (h x (by simp) _).1, List.length_cons]
    ring

theorem readArray_cases (c : Codec τ) (n : Nat) (s : List Byte) (h : n * c.size ≤ s.length) :
    readArray c n s = .invalid ∨
    ∃ v, readArray c n s = .ok v (s.drop (n * c.size)) ∧ v.length = n := by
  induction n generalizing s with
  | zero => exact .inr ⟨[], by simp [readArray], rfl⟩
  | succ n ih =>
    have h' : n * c.size + c.size ≤ s.length := by rwa [Nat.succ_mul] at h
    unfold readArray readValue
    rw [if_neg (by omega)]
    cases hd : c.dec (s.take c.size) with
    | none => exact .inl rfl
    | some x =>
      rcases ih (s.drop c.size) (by rw [List.length_drop]; omega) with e | ⟨v, e, hl⟩
      · exact .inl (by simp [Load.bind, e])
      · refine .inr ⟨x :: v, ?_, by simp [hl]⟩
        simp only [Load.bind, e, List.drop_drop, Load.ok.injEq, true_and]
        congr 1
        rw [Nat.succ_mul]
        omega

theorem readArray_total {c : Codec τ} (hc : ∀ bs, bs.length = c.size → c.dec bs ≠ none) (n : Nat)
    (s : List Byte) (h : n * c.size ≤ s.length) :
    ∃ v, readArray c n s = .ok v (s.drop (n * c.size)) ∧ v.length = n := by
  induction n generalizing s with
  | zero => exact ⟨[], by simp [readArray], rfl⟩
  | succ n ih =>
    have h' : n * c.size + c.size ≤ s.length := by rwa [Nat.succ_mul] at h
    unfold readArray readValue
    rw [if_neg (by omega)]
    cases hd : c.dec (s.take c.size) with
    | none => exact absurd hd (hc _ (by rw [List.length_take]; omega))
    | some x =>
      obtain ⟨v, e, hl⟩ := ih (s.drop c.size) (by rw [List.length_drop]; omega)
      refine ⟨x :: v, ?_, by simp [hl]⟩
      simp only [Load.bind, e, List.drop_drop, Load.ok.injEq, true_and]
      congr 1
      rw [Nat.succ_mul]
      omega

theorem readArray_flatMap {c : Codec τ} {v : List τ} (h : ∀ x ∈ v, c.Good x) (pad : Nat → Byte)
    (rest : List Byte) : readArray c v.length (v.flatMap (c.enc pad) ++ rest) = .ok v rest := by
  induction v with
  | nil => rfl
  | cons x v ih =>
    simp only [List.length_cons, readArray, List.flatMap_cons, List.append_assoc]
    rw [readValue_enc (h x (by simp))]
    simp only [Load.bind]
    rw [ih fun y hy => h y (by simp [hy])]

theorem flatMap_enc_length {c : Codec τ} {v : List τ} (h : ∀ x ∈ v, c.Good x) (pad : Nat → Byte) :
    (v.flatMap (c.enc pad)).length = v.length * c.size := by
  induction v with
  | nil => simp
  | cons x v ih =>
    rw [List.flatMap_cons, List.length_append, (h x (by simp) pad).1, ih fun y hy => h y (by simp [hy]),
      List.length_cons]
    ring

theorem readRows_total {int : Codec Int} {c : Codec τ} (hi : ∀ bs, bs.length = int.size → int.dec bs ≠ none)
    (hc : ∀ bs, bs.length = c.size → c.dec bs ≠ none) (N n : Nat) (s : List Byte)
    (h : n * (int.size + c.size * N) ≤ s.length) :
    ∃ v, readRows int c N n s = .ok v (s.drop (n * (int.size + c.size * N))) ∧ v.length = n ∧
      ∀ r ∈ v, r.length = N := by
  induction n generalizing s with
  | zero => exact ⟨[], by simp [readRows], rfl, by simp⟩
  | succ n ih =>
    have h' : n * (int.size + c.size * N) + (int.size + c.size * N) ≤ s.length := by rwa [Nat.succ_mul] at h
    unfold readRows readValue
    rw [if_neg (by omega)]
    cases hd : int.dec (s.take int.size) with
    | none => exact absurd hd (hi _ (by rw [List.length_take]; omega))
    | some x =>
      obtain ⟨r, e, hr⟩ := readArray_total hc N (s.drop int.size)
        (by rw [List.length_drop, Nat.mul_comm N]; omega)
      obtain ⟨v, e2, hl, hv⟩ := ih (s.drop (int.size + c.size * N)) (by rw [List.length_drop]; omega)
      refine ⟨r :: v, ?_, by simp [hl], by simpa [hr] using hv⟩
      simp only [Load.bind, e, List.drop_drop, Nat.mul_comm N, e2, Load.ok.injEq, true_and]
      congr 1
      rw [Nat.succ_mul]
      omega

theorem readRows_xvecs {int : Codec Int} {c : Codec τ} {N : Nat} {rows : List (List τ)}
    (hi : int.Good (N : Int)) (hr : ∀ r ∈ rows, r.length = N ∧ ∀ x ∈ r, c.Good x) (pad : Nat → Byte)
    (rest : List Byte) :
    readRows int c N rows.length (xvecs (int.enc pad) (c.enc pad) rows ++ rest) = .ok rows rest := by
  induction rows with
  | nil => rfl
  | cons r rows ih =>
    obtain ⟨h1, h2⟩ := hr r (by simp)
    unfold xvecs at ih ⊢
    simp only [List.length_cons, readRows, List.flatMap_cons, List.append_assoc, h1]
    rw [readValue_enc hi]
    simp only [Load.bind]
    rw [← h1, readArray_flatMap h2]
    simp only
    rw [h1, ih fun y hy => hr y (by simp [hy])]

theorem xvecs_length {int : Codec Int} {c : Codec τ} {N : Nat} {rows : List (List τ)}
    (hi : int.Good (N : Int)) (hr : ∀ r ∈ rows, r.length = N ∧ ∀ x ∈ r, c.Good x) (pad : Nat → Byte) :
    (xvecs (int.enc pad) (c.enc pad) rows).length = rows.length * (int.size + c.size * N) := by
  induction rows with
  | nil => simp [xvecs]
  | cons r rows ih =>
    obtain ⟨h1, h2⟩ := hr r (by simp)
    have ih' := ih fun y hy => hr y (by simp [hy])
    unfold xvecs at ih' ⊢
    rw [List.flatMap_cons, List.length_append, ih', List.length_append, h1, (hi pad).1, flatMap_enc_length h2, h1,
      List.length_cons]
    ring

end

/-! ## MNIST -/

theorem fill_append {old : Nat → Byte} {n : Nat} {a : List Byte} (h : a.length = n) (rest : List Byte) :
    fill old n (a ++ rest) = a := by
  unfold fill
  apply List.ext_getElem (by simp [h])
  intro i h1 h2
  rw [List.getElem_map, List.getElem_range, List.getD_eq_getElem _ _ (by rw [List.length_append]; omega),
    List.getElem_append_left h2]

theorem fill_take {old : Nat → Byte} {n : Nat} {s : List Byte} (h : n ≤ s.length) : fill old n s = s.take n := by
  have e := fill_append (old := old) (n := n) (a := s.take n) (by rw [List.length_take]; omega) (s.drop n)
  rwa [List.take_append_drop] at e

theorem readBlocks_flatten {size : Nat} {blocks : List (List Byte)} (h : ∀ b ∈ blocks, b.length = size)
    (rest : List Byte) : readBlocks size blocks.length (blocks.flatten ++ rest) = blocks := by
  induction blocks with
  | nil => rfl
  | cons b blocks ih =>
    have hb : b.length = size := h b (by simp)
    have ih' := ih fun y hy => h y (by simp [hy])
    unfold readBlocks at ih' ⊢
    rw [List.length_cons, List.range_succ_eq_map, List.map_cons, List.map_map, List.flatten_cons,
      List.append_assoc]
    congr 1
    · apply List.ext_getElem (by simp [hb])
      intro j h1 h2
      rw [List.getElem_map, List.getElem_range, Nat.mul_zero, Nat.zero_add,
        List.getD_eq_getElem _ _ (by rw [List.length_append]; omega), List.getElem_append_left h2]
    · conv_rhs => rw [← ih']
      apply List.map_congr_left
      intro i _
      apply List.map_congr_left
      intro j _
      change (b ++ (blocks.flatten ++ rest)).getD (size * (i + 1) + j) 0 = _
      rw [List.getD_append_right _ _ _ _ (by rw [hb, Nat.mul_succ]; omega)]
      congr 1
      rw [hb, Nat.mul_succ]
      omega

theorem readBlocks_length (size n : Nat) (s : List Byte) :
    (readBlocks size n s).length = n ∧ ∀ b ∈ readBlocks size n s, b.length = size := by
  unfold readBlocks
  refine ⟨by simp, fun b hb => ?_⟩
  obtain ⟨i, _, rfl⟩ := List.mem_map.1 hb
  simp

theorem toInt_bigEndian {v : Nat} (h : v < 2 ^ 31) : (bigEndianToNative 4 (bigEndian 4 v)).toInt = v := by
  rw [bigEndianToNative_bigEndian (by omega), BitVec.toInt_eq_toNat_of_lt]
  · simp only [BitVec.toNat_ofNat]
    rw [Nat.mod_eq_of_lt (by omega)]
  · simp only [BitVec.toNat_ofNat]
    rw [Nat.mod_eq_of_lt (by omega)]
    omega

/-! ## Words -/

theorem isBlank_iff (c : Char) : isBlank c = true ↔ blank c := by
  simp [isBlank, blank, or_assoc]

theorem dropWhile_blank {g w rest : List Char} (hg : ∀ c ∈ g, blank c) (hw : Word w) :
    (g ++ (w ++ rest)).dropWhile isBlank = w ++ rest := by
  induction g with
  | nil =>
    obtain ⟨h1, h2⟩ := hw
    cases w with
    | nil => exact absurd rfl h1
    | cons c w =>
      have : isBlank c = false := by
        rw [Bool.eq_false_iff, Ne, isBlank_iff]
        exact h2 c (by simp)
      simp [this]
  | cons c g ih =>
    have : isBlank c = true := (isBlank_iff c).2 (hg c (by simp))
    simp only [List.cons_append, List.dropWhile_cons, this, if_true]
    exact ih fun x hx => hg x (by simp [hx])

/-- The next word; `rest` is empty or begins with white space. -/
theorem nextToken_word {g w rest : List Char} (value : List Char) (hg : ∀ c ∈ g, blank c) (hw : Word w)
    (hr : ∀ c, rest.head? = some c → blank c) : nextToken value (g ++ (w ++ rest)) = (w, rest) := by
  have hb : ∀ c ∈ w, (!isBlank c) = true := fun c hc => by
    rw [Bool.not_eq_true', Bool.eq_false_iff, Ne, isBlank_iff]
    exact hw.2 c hc
  have ht : ∀ p : Char → Bool, rest.head?.all (fun c => !p c) → rest.takeWhile p = [] ∧ rest.dropWhile p = rest := by
    intro p hp
    cases rest with
    | nil => simp
    | cons c rest => simp at hp; simp [hp]
  have h3 := ht (fun c => !isBlank c) (by
    cases hh : rest.head? with
    | none => simp
    | some c => simpa using (isBlank_iff c).2 (hr c hh))
  unfold nextToken
  rw [dropWhile_blank hg hw]
  have hne : (w ++ rest).isEmpty = false := by
    cases w with
    | nil => exact absurd rfl hw.1
    | cons c w => rfl
  simp only [hne, Bool.false_eq_true, if_false]
  rw [List.takeWhile_append_of_pos hb, List.dropWhile_append_of_pos hb, h3.1, h3.2, List.append_nil]

theorem nextToken_blank {g : List Char} (value : List Char) (hg : ∀ c ∈ g, blank c) :
    nextToken value g = (value, []) := by
  have : g.dropWhile isBlank = [] := by
    rw [List.dropWhile_eq_nil_iff]
    exact fun c hc => (isBlank_iff c).2 (hg c hc)
  simp [nextToken, this]

end Pico
