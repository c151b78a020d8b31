import Verif.Proof.Formats
import Mathlib.Tactic.LinearCombination
import Mathlib.Tactic.NormNum
import Mathlib.Tactic.Linarith
import Mathlib.Tactic.FinCases
import Mathlib.Tactic.IntervalCases
import Mathlib.Analysis.Complex.Trigonometric

/-!
# C73 - C78: file formats of the examples
-/

set_option linter.unusedSectionVars false

namespace Pico.Props

open Pico Spec

/-! ## C73: byte order -/

/-- C73: `big_endian<T_>` gives the number that the bytes of a file represent, for every integral type that
`static_assert` admits (`w` bytes); the byte order of the machine does not occur.  `v` as `BitVec` covers signed
and unsigned types. -/
theorem c73_big_endian {w : Nat} (hw : w ≤ 8) (v : BitVec (8 * w)) :
    bigEndianToNative w (bigEndian w v.toNat) = v := by
  rw [bigEndianToNative_bigEndian hw, BitVec.ofNat_toNat, BitVec.setWidth_eq]

/-- C73: for all bytes, not only for those that come from a number. -/
theorem c73_all_bytes {w : Nat} (hw : w ≤ 8) (bs : List Byte) (h : bs.length = w) :
    (bigEndianToNative w bs).toNat = bigEndianValue bs ∧ bigEndian w (bigEndianToNative w bs).toNat = bs := by
  have e : (bigEndianToNative w bs).toNat = bigEndianValue bs := by
    subst h
    conv_lhs => rw [← bigEndian_value bs]
    rw [bigEndian_length] at *
    rw [bigEndianToNative_bigEndian hw, BitVec.toNat_ofNat, Nat.mod_eq_of_lt]
    rw [Nat.pow_mul]
    exact bigEndianValue_lt bs
  refine ⟨e, ?_⟩
  rw [e, ← h, bigEndian_value]

/-- C73: `swap_endian` converts between the two byte orders and is its own inverse. -/
theorem c73_swap (bs : List Byte) :
    leValue (swapEndian bs) = bigEndianValue bs ∧ bigEndianValue (swapEndian bs) = leValue bs ∧
    swapEndian (swapEndian bs) = bs ∧ (swapEndian bs).length = bs.length := by
  simp only [swapEndian_eq, List.reverse_reverse, List.length_reverse]
  exact ⟨leValue_reverse bs, by rw [← leValue_reverse, List.reverse_reverse], trivial, trivial⟩

/-- C73: on a little endian machine (the value of an object is `leValue` of its bytes) both functions agree. -/
theorem c73_agree {w : Nat} (hw : w ≤ 8) (bs : List Byte) (h : bs.length = w) :
    leValue (swapEndian bs) = (bigEndianToNative w bs).toNat := by
  rw [(c73_swap bs).1, (c73_all_bytes hw bs h).1]

/-- 2051 and -2 in 32 bits, 0x0102 in 16 bits. -/
example : (bigEndianToNative 4 [0, 0, 8, 3]).toInt = 2051 ∧ (bigEndianToNative 4 [255, 255, 255, 254]).toInt = -2 ∧
    (bigEndianToNative 2 [1, 2]).toNat = 258 ∧ swapEndian [1, 2, 3] = [3, 2, 1] := by decide +kernel

/-! ## C74: binary files -/

section Bin
variable {τ : Type}

/-- C74: a vector that is not empty is read back as it was written, whatever the file held before.  Missing: the
empty vector (`c74_stale`, `c74_false`). -/
theorem c74_round_trip_partial {c : Codec τ} (hc : 0 < c.size) {v : List τ} (hv : ∀ x ∈ v, c.Good x) (hne : v ≠ [])
    (pad : Nat → Byte) (file : Option (List Byte)) : readBin c (writeBin pad c v file) = .ok v [] := by
  have he : v.isEmpty = false := by cases v <;> simp_all
  unfold writeBin readBin
  simp only [he, Bool.false_eq_true, if_false]
  have hl := writeArray_length hv pad []
  obtain ⟨body, e, r⟩ := recovers_array hv pad []
  rw [List.length_nil, Nat.zero_add] at hl
  rw [hl, Nat.mul_div_cancel _ hc, e]
  have := r []
  simpa using this

/-- C74: `read_bin` never reads behind the end of the file: it takes as many elements as fit, what is left over is
shorter than an element. -/
theorem c74_all_elements {c : Codec τ} (hc : 0 < c.size) (bytes : List Byte) :
    readBin c (some bytes) ≠ .eof ∧
    ∀ v rest, readBin c (some bytes) = .ok v rest →
      v.length = bytes.length / c.size ∧ rest = bytes.drop (v.length * c.size) ∧ rest.length < c.size := by
  have hm := Nat.div_mul_le_self bytes.length c.size
  have hd := Nat.div_add_mod bytes.length c.size
  have hlt := Nat.mod_lt bytes.length hc
  unfold readBin
  dsimp only
  rcases readArray_cases c _ bytes hm with e | ⟨v, e, hl⟩
  · rw [e]
    exact ⟨by simp, fun v rest h => by simp at h⟩
  · rw [e]
    refine ⟨by simp, fun v' rest h => ?_⟩
    simp only [Load.ok.injEq] at h
    obtain ⟨rfl, rfl⟩ := h
    refine ⟨hl, by rw [hl], ?_⟩
    rw [List.length_drop, Nat.mul_comm]
    omega

/-- C74 is violated: writing an empty vector leaves the file alone, so that the elements written before come
back. -/
theorem c74_stale {c : Codec τ} (hc : 0 < c.size) {old : List τ} (hv : ∀ x ∈ old, c.Good x) (hne : old ≠ [])
    (pad : Nat → Byte) (file : Option (List Byte)) :
    readBin c (writeBin pad c [] (writeBin pad c old file)) = .ok old [] := by
  have : ∀ f, writeBin pad c ([] : List τ) f = f := fun f => rfl
  rw [this]
  exact c74_round_trip_partial hc hv hne pad file

/-- C74 is violated for every element type: without a file, reading after writing an empty vector throws. -/
theorem c74_false (c : Codec τ) (pad : Nat → Byte) :
    ¬ ∀ (v : List τ) (file : Option (List Byte)), (∀ x ∈ v, c.Good x) →
      readBin c (writeBin pad c v file) = .ok v [] := by
  intro h
  have := h [] none (by simp)
  simp [writeBin, readBin] at this

/-- The hypotheses hold for 32-bit numbers; the file held something else before. -/
example : readBin (.unsigned 4) (writeBin (fun _ => 0) (.unsigned 4) [7, 70000] (some [1, 2, 3])) =
    .ok [7, 70000] [] :=
  c74_round_trip_partial (by decide) (by
    intro x hx
    simp only [List.mem_cons, List.not_mem_nil, or_false] at hx
    rcases hx with rfl | rfl
    · exact good_unsigned (by norm_num)
    · exact good_unsigned (by norm_num)) (by simp) _ _

/-- A file with a trailing byte. -/
example : readBin (.unsigned 2) (some [1, 0, 2, 0, 9]) = .ok [1, 2] [9] := by decide +kernel

end Bin

/-! ## C75: MNIST -/

private theorem drop_four (a rest : List Byte) (h : a.length = 4) : (a ++ rest).drop 4 = rest := by
  rw [List.drop_left' h]

private theorem drop_eight (a b rest : List Byte) (ha : a.length = 4) (hb : b.length = 4) :
    (a ++ (b ++ rest)).drop 8 = rest := by
  rw [show 8 = 4 + 4 from rfl, ← List.drop_drop, drop_four a _ ha, drop_four b _ hb]

/-- C75: the reader accepts the images of a file whose width and height have the product 784. -/
theorem c75_shapes {rows cols : Nat} (hp : rows * cols = 784) (images : List (List Byte))
    (hi : ∀ x ∈ images, x.length = 28 * 28) (hn : images.length < 2 ^ 31) (rest : List Byte)
    (junk : Fin 2 → Nat → Byte) :
    readMnistImages junk (some (mnistImages rows cols images ++ rest)) = .ok images := by
  have hr0 : 0 < rows := Nat.pos_of_ne_zero (by rintro rfl; omega)
  have hc0 : 0 < cols := Nat.pos_of_ne_zero (by rintro rfl; omega)
  have hr : rows < 2 ^ 31 := by nlinarith
  have hc : cols < 2 ^ 31 := by nlinarith
  unfold readMnistImages mnistImages
  simp only [List.append_assoc]
  rw [fill_append (bigEndian_length 4 2051), toInt_bigEndian (by norm_num), if_neg (by norm_num),
    drop_four _ _ (bigEndian_length 4 2051)]
  have e : fill (junk 1) 12 (bigEndian 4 images.length ++ (bigEndian 4 rows ++ (bigEndian 4 cols ++
      (images.flatten ++ rest)))) = bigEndian 4 images.length ++ (bigEndian 4 rows ++ bigEndian 4 cols) := by
    have := fill_append (old := junk 1) (n := 12)
      (a := bigEndian 4 images.length ++ (bigEndian 4 rows ++ bigEndian 4 cols))
      (by simp [bigEndian_length]) (images.flatten ++ rest)
    simpa using this
  simp only [e]
  rw [List.take_left' (bigEndian_length 4 _), List.drop_left' (bigEndian_length 4 _),
    List.take_left' (bigEndian_length 4 _),
    drop_eight _ _ _ (bigEndian_length 4 _) (bigEndian_length 4 _), toInt_bigEndian hn, toInt_bigEndian hr,
    toInt_bigEndian hc]
  have hm : mulInt32 (rows : Int) (cols : Int) = some 784 := by
    have h : (rows : Int) * (cols : Int) = 784 := by exact_mod_cast hp
    unfold mulInt32
    rw [h]
    rfl
  rw [hm]
  have hr : resizeCount (images.length : Int) = some images.length := by
    unfold resizeCount
    rw [if_neg (by omega)]
    simp
  simp only [hr]
  rw [if_neg (by norm_num)]
  have hd : (bigEndian 4 2051 ++ (bigEndian 4 images.length ++ (bigEndian 4 rows ++ (bigEndian 4 cols ++
      (images.flatten ++ rest))))).drop 16 = images.flatten ++ rest := by
    rw [show 16 = 4 + (4 + (4 + 4)) from rfl, ← List.drop_drop, ← List.drop_drop, ← List.drop_drop]
    simp only [drop_four _ _ (bigEndian_length 4 _)]
  rw [hd, readBlocks_flatten hi rest]

/-- C75: a file of the format is read as written, also if more bytes follow.  Missing: that all other files are
rejected (`c75_false`, `c75_overflow`, `c75_short`). -/
theorem c75_images_partial (images : List (List Byte)) (hi : ∀ x ∈ images, x.length = 28 * 28)
    (hn : images.length < 2 ^ 31) (rest : List Byte) (junk : Fin 2 → Nat → Byte) :
    readMnistImages junk (some (mnistImages 28 28 images ++ rest)) = .ok images :=
  c75_shapes rfl images hi hn rest junk

/-- C75 for labels. -/
theorem c75_labels_partial (labels : List Byte) (hn : labels.length < 2 ^ 31) (rest : List Byte)
    (junk : Fin 2 → Nat → Byte) :
    readMnistLabels junk (some (mnistLabels labels ++ rest)) = .ok labels := by
  unfold readMnistLabels mnistLabels
  simp only [List.append_assoc]
  rw [fill_append (bigEndian_length 4 2049), toInt_bigEndian (by norm_num), if_neg (by norm_num),
    drop_four _ _ (bigEndian_length 4 2049), fill_append (bigEndian_length 4 _), toInt_bigEndian hn]
  have hr : resizeCount (labels.length : Int) = some labels.length := by
    unfold resizeCount
    rw [if_neg (by omega)]
    simp
  simp only [hr]
  congr 1
  have hd : (bigEndian 4 2049 ++ (bigEndian 4 labels.length ++ (labels ++ rest))).drop 8 = labels ++ rest := by
    rw [show 8 = 4 + 4 from rfl, ← List.drop_drop]
    simp only [drop_four _ _ (bigEndian_length 4 _)]
  rw [hd]
  have h1 := readBlocks_flatten (size := 1) (blocks := labels.map fun b => [b]) (by simp) rest
  have h2 : (labels.map fun b => [b]).flatten = labels := by
    rw [← List.flatMap_def]
    simp
  rw [h2, List.length_map] at h1
  rw [h1, h2]

theorem toInt_bigEndianToNative (bs : List Byte) (h : bs.length = 4) :
    (bigEndianToNative 4 bs).toInt = bigEndianSigned bs := by
  unfold bigEndianSigned
  rw [BitVec.toInt_eq_toNat_cond, (c73_all_bytes (by omega) bs h).1, h]
  norm_num

/-- C75: exactly these files are accepted among those that hold a complete header: the magic number, a number of
images that is not negative, and a product of width and height of 784 that is computed without overflow. -/
theorem c75_accepts (s : List Byte) (hs : 16 ≤ s.length) (junk : Fin 2 → Nat → Byte) (images : List (List Byte)) :
    readMnistImages junk (some s) = .ok images ↔
      bigEndianValue (s.take 4) = 2051 ∧ bigEndianValue ((s.drop 4).take 4) < 2 ^ 31 ∧
      bigEndianSigned ((s.drop 8).take 4) * bigEndianSigned ((s.drop 12).take 4) = 784 ∧
      images.length = bigEndianValue ((s.drop 4).take 4) ∧
      ∀ i (hi : i < images.length), images[i].length = 784 ∧
        ∀ j (hj : j < images[i].length), images[i][j] = s.getD (16 + 784 * i + j) 0 := by
  rw [← toInt_bigEndianToNative _ (by rw [List.length_take, List.length_drop]; omega),
    ← toInt_bigEndianToNative _ (by rw [List.length_take, List.length_drop]; omega)]
  have e1 : fill (junk 0) 4 s = s.take 4 := fill_take (by omega)
  have e2 : fill (junk 1) 12 (s.drop 4) = (s.drop 4).take 12 := fill_take (by rw [List.length_drop]; omega)
  have e3 : ((s.drop 4).take 12).take 4 = (s.drop 4).take 4 := by rw [List.take_take]; rfl
  have e4 : (((s.drop 4).take 12).drop 4).take 4 = (s.drop 8).take 4 := by
    rw [List.drop_take, List.drop_drop, List.take_take]; rfl
  have e5 : ((s.drop 4).take 12).drop 8 = (s.drop 12).take 4 := by rw [List.drop_take, List.drop_drop]
  have l1 : (s.take 4).length = 4 := by rw [List.length_take]; omega
  have l2 : ((s.drop 4).take 4).length = 4 := by rw [List.length_take, List.length_drop]; omega
  have v1 := (c73_all_bytes (by omega) _ l1).1
  have v2 := (c73_all_bytes (by omega) _ l2).1
  have b1 := bigEndianValue_lt (s.take 4)
  have b2 := bigEndianValue_lt ((s.drop 4).take 4)
  rw [l1] at b1
  rw [l2] at b2
  unfold readMnistImages
  simp only [e1, e2, e3, e4, e5]
  generalize bigEndianToNative 4 (s.take 4) = m at *
  generalize bigEndianToNative 4 ((s.drop 4).take 4) = c at *
  generalize (bigEndianToNative 4 ((s.drop 8).take 4)).toInt = a
  generalize (bigEndianToNative 4 ((s.drop 12).take 4)).toInt = b
  rw [← v1, ← v2] at *
  have hm : m.toInt = 2051 ↔ m.toNat = 2051 := by
    rw [BitVec.toInt_eq_toNat_cond]
    split <;> omega
  have hc : ¬ c.toInt < 0 ↔ c.toNat < 2 ^ 31 := by
    rw [BitVec.toInt_eq_toNat_cond]
    split <;> omega
  have hcn : c.toNat < 2 ^ 31 → c.toInt.toNat = c.toNat := by
    intro h
    rw [BitVec.toInt_eq_toNat_cond, if_pos (by omega)]
    simp
  have key : ∀ n, images = readBlocks (28 * 28) n (s.drop 16) ↔ images.length = n ∧
      ∀ i (hi : i < images.length), images[i].length = 784 ∧
        ∀ j (hj : j < images[i].length), images[i][j] = s.getD (16 + 784 * i + j) 0 := by
    intro n
    constructor
    · rintro rfl
      have hl := readBlocks_length (28 * 28) n (s.drop 16)
      refine ⟨hl.1, fun i hi => ⟨hl.2 _ (List.getElem_mem hi), fun j hj => ?_⟩⟩
      simp only [readBlocks, List.getElem_map, List.getElem_range]
      rw [List.getD_eq_getElem?_getD, List.getD_eq_getElem?_getD, List.getElem?_drop]
      congr 2
      omega
    · rintro ⟨rfl, h⟩
      apply List.ext_getElem
      · rw [(readBlocks_length _ _ _).1]
      · intro i h1 h2
        apply List.ext_getElem
        · rw [(h i h1).1, (readBlocks_length _ _ _).2 _ (List.getElem_mem h2)]
        · intro j h3 h4
          rw [(h i h1).2 j h3]
          simp only [readBlocks, List.getElem_map, List.getElem_range]
          rw [List.getD_eq_getElem?_getD, List.getD_eq_getElem?_getD, List.getElem?_drop]
          congr 2
          omega
  by_cases h1 : m.toInt = 2051
  · rw [if_neg (by simpa using h1)]
    by_cases h2 : a * b = 784
    · have h3 : mulInt32 a b = some 784 := by
        unfold mulInt32
        rw [h2]
        rfl
      simp only [h3]
      rw [if_neg (by norm_num)]
      unfold resizeCount
      by_cases h4 : c.toInt < 0
      · rw [if_pos h4]
        have : ¬ c.toNat < 2 ^ 31 := fun h => hc.2 h h4
        exact ⟨fun h => by simp at h, fun h => absurd h.2.1 this⟩
      · rw [if_neg h4]
        have h5 := hc.1 h4
        simp only [FileRead.ok.injEq, hm.1 h1, h2, h5, true_and]
        rw [eq_comm, hcn h5]
        exact key _
    · have : ∀ x, (mulInt32 a b = some x → x ≠ 784) := by
        unfold mulInt32
        intro x hx
        split at hx
        · simp only [Option.some.injEq] at hx
          omega
        · simp at hx
      cases h3 : mulInt32 a b with
      | none => exact ⟨fun h => by simp at h, fun h => absurd h.2.2.1 h2⟩
      | some x =>
        simp only
        rw [if_pos (by have := this x h3; omega)]
        exact ⟨fun h => by simp at h, fun h => absurd h.2.2.1 h2⟩
  · rw [if_pos h1]
    exact ⟨fun h => by simp at h, fun h => absurd (hm.2 h.1) h1⟩

/-- C75: exactly for these files with a complete header the behaviour is undefined; the files that are neither among
these nor among the accepted ones (`c75_accepts`) are rejected. -/
theorem c75_undefined (s : List Byte) (hs : 16 ≤ s.length) (junk : Fin 2 → Nat → Byte) :
    readMnistImages junk (some s) = .ub ↔
      bigEndianValue (s.take 4) = 2051 ∧
      ¬ (-2 ^ 31 ≤ bigEndianSigned ((s.drop 8).take 4) * bigEndianSigned ((s.drop 12).take 4) ∧
        bigEndianSigned ((s.drop 8).take 4) * bigEndianSigned ((s.drop 12).take 4) ≤ 2 ^ 31 - 1) := by
  rw [← toInt_bigEndianToNative _ (by rw [List.length_take, List.length_drop]; omega),
    ← toInt_bigEndianToNative _ (by rw [List.length_take, List.length_drop]; omega)]
  have e1 : fill (junk 0) 4 s = s.take 4 := fill_take (by omega)
  have e2 : fill (junk 1) 12 (s.drop 4) = (s.drop 4).take 12 := fill_take (by rw [List.length_drop]; omega)
  have e4 : (((s.drop 4).take 12).drop 4).take 4 = (s.drop 8).take 4 := by
    rw [List.drop_take, List.drop_drop, List.take_take]; rfl
  have e5 : ((s.drop 4).take 12).drop 8 = (s.drop 12).take 4 := by rw [List.drop_take, List.drop_drop]
  have l1 : (s.take 4).length = 4 := by rw [List.length_take]; omega
  have v1 := (c73_all_bytes (by omega) _ l1).1
  have b1 := bigEndianValue_lt (s.take 4)
  rw [l1] at b1
  unfold readMnistImages
  simp only [e1, e2, e4, e5]
  generalize (bigEndianToNative 4 ((s.drop 8).take 4)).toInt = a
  generalize (bigEndianToNative 4 ((s.drop 12).take 4)).toInt = b
  generalize bigEndianToNative 4 (s.take 4) = m at *
  rw [← v1] at *
  have hm : m.toInt = 2051 ↔ m.toNat = 2051 := by
    rw [BitVec.toInt_eq_toNat_cond]
    split <;> omega
  rw [← hm]
  by_cases h1 : m.toInt = 2051
  · rw [if_neg (by simpa using h1)]
    simp only [h1, true_and]
    unfold mulInt32
    by_cases h2 : -2 ^ 31 ≤ a * b ∧ a * b < 2 ^ 31
    · rw [if_pos h2]
      refine ⟨fun h => ?_, fun h => absurd ⟨h2.1, by omega⟩ h⟩
      dsimp only at h
      split at h
      · simp at h
      · split at h <;> simp at h
    · rw [if_neg h2]
      exact ⟨fun _ h => h2 ⟨h.1, by omega⟩, fun _ => rfl⟩
  · rw [if_pos h1]
    simp [h1]

/-- C75: a file of another kind is rejected. -/
theorem c75_magic {m : Nat} (hm : m < 2 ^ 32) (rest : List Byte) (junk : Fin 2 → Nat → Byte) :
    (m ≠ 2051 → readMnistImages junk (some (bigEndian 4 m ++ rest)) = .throws) ∧
    (m ≠ 2049 → readMnistLabels junk (some (bigEndian 4 m ++ rest)) = .throws) := by
  have e : ∀ k : Nat, k < 2 ^ 31 → m ≠ k → (bigEndianToNative 4 (bigEndian 4 m)).toInt ≠ (k : Int) := by
    intro k hk hne
    rw [bigEndianToNative_bigEndian (by omega), BitVec.toInt_eq_toNat_cond, BitVec.toNat_ofNat,
      Nat.mod_eq_of_lt (by omega)]
    split <;> omega
  constructor <;> intro h
  · unfold readMnistImages
    dsimp only
    rw [fill_append (bigEndian_length 4 m), if_pos (by simpa using e 2051 (by norm_num) h)]
  · unfold readMnistLabels
    dsimp only
    rw [fill_append (bigEndian_length 4 m), if_pos (by simpa using e 2049 (by norm_num) h)]

/-- C75 is violated: images of 4 × 196 pixels are accepted. -/
theorem c75_false (junk : Fin 2 → Nat → Byte) (image : List Byte) (h : image.length = 28 * 28) :
    readMnistImages junk (some (mnistImages 4 196 [image])) = .ok [image] := by
  have := c75_shapes (rows := 4) (cols := 196) rfl [image] (by simpa using h) (by norm_num) [] junk
  rwa [List.append_nil] at this

/-- C75 is violated: a width and a height of 65536 make the multiplication of two `int` overflow, which is undefined
behaviour rather than an exception. -/
theorem c75_overflow (junk : Fin 2 → Nat → Byte) (n : Nat) (rest : List Byte) :
    readMnistImages junk (some (bigEndian 4 2051 ++ (bigEndian 4 n ++ (bigEndian 4 65536 ++ (bigEndian 4 65536 ++
      rest))))) = .ub := by
  unfold readMnistImages
  dsimp only
  rw [fill_append (bigEndian_length 4 2051), toInt_bigEndian (by norm_num), if_neg (by norm_num),
    drop_four _ _ (bigEndian_length 4 2051)]
  have e : fill (junk 1) 12 (bigEndian 4 n ++ (bigEndian 4 65536 ++ (bigEndian 4 65536 ++ rest))) =
      bigEndian 4 n ++ (bigEndian 4 65536 ++ bigEndian 4 65536) := by
    have := fill_append (old := junk 1) (n := 12) (a := bigEndian 4 n ++ (bigEndian 4 65536 ++ bigEndian 4 65536))
      (by simp [bigEndian_length]) rest
    simpa using this
  rw [e, List.drop_left' (bigEndian_length 4 _), List.take_left' (bigEndian_length 4 _),
    drop_eight _ _ _ (bigEndian_length 4 _) (bigEndian_length 4 _), toInt_bigEndian (by norm_num)]
  rfl

/-- C75 is violated: a file that ends after the header gives as many black images as the header promises. -/
theorem c75_short (junk : Fin 2 → Nat → Byte) (n : Nat) (hn : n < 2 ^ 31) :
    readMnistImages junk (some (bigEndian 4 2051 ++ (bigEndian 4 n ++ (bigEndian 4 28 ++ bigEndian 4 28)))) =
      .ok (List.replicate n (List.replicate 784 0)) := by
  have hv : ∀ v, v < 2 ^ 31 → bigEndianValue (bigEndian 4 v) = v := by
    intro v h
    have := (c73_all_bytes (w := 4) (by omega) _ (bigEndian_length 4 v)).1
    rw [bigEndianToNative_bigEndian (by omega), BitVec.toNat_ofNat, Nat.mod_eq_of_lt (by omega)] at this
    exact this.symm
  have hl : (bigEndian 4 2051 ++ (bigEndian 4 n ++ (bigEndian 4 28 ++ bigEndian 4 28))).length = 16 := by
    simp [bigEndian_length]
  rw [c75_accepts _ hl.ge]
  have d4 := drop_four (bigEndian 4 2051) (bigEndian 4 n ++ (bigEndian 4 28 ++ bigEndian 4 28)) (bigEndian_length 4 _)
  have d8 : (bigEndian 4 2051 ++ (bigEndian 4 n ++ (bigEndian 4 28 ++ bigEndian 4 28))).drop 8 =
      bigEndian 4 28 ++ bigEndian 4 28 := by
    rw [show 8 = 4 + 4 from rfl, ← List.drop_drop, d4, drop_four _ _ (bigEndian_length 4 _)]
  have d12 : (bigEndian 4 2051 ++ (bigEndian 4 n ++ (bigEndian 4 28 ++ bigEndian 4 28))).drop 12 =
      bigEndian 4 28 := by
    rw [show 12 = 8 + 4 from rfl, ← List.drop_drop, d8, drop_four _ _ (bigEndian_length 4 _)]
  rw [d4, d8, d12, List.take_left' (bigEndian_length 4 _), List.take_left' (bigEndian_length 4 _),
    List.take_left' (bigEndian_length 4 _), List.take_of_length_le (bigEndian_length 4 _).le, hv _ (by norm_num),
    hv n hn, ← toInt_bigEndianToNative _ (bigEndian_length 4 _), toInt_bigEndian (by norm_num)]
  refine ⟨rfl, hn, by norm_num, List.length_replicate, fun i hi => ?_⟩
  simp only [List.getElem_replicate, List.length_replicate, true_and]
  intro j hj
  rw [List.getD_eq_getElem?_getD, List.getElem?_eq_none (by omega)]
  rfl

/-- A file of two labels and a file with no images. -/
example : readMnistLabels (fun _ _ => 0) (some (mnistLabels [7, 2])) = .ok [7, 2] ∧
    readMnistImages (fun _ _ => 0) (some (mnistImages 28 28 [])) = .ok [] ∧
    readMnistImages (fun _ _ => 0) (some (mnistLabels [7, 2])) = .throws := by decide +kernel

/-! ## C76: bvecs, fvecs, ivecs -/

section Xvecs
variable {τ : Type}

/-- The published file name extensions (specification). -/
def vecsExtension : VecsType → List Char
  | .byte => "bvecs".toList
  | .float => "fvecs".toList
  | .int => "ivecs".toList

theorem lowerChar_eq (c : Char) : ∀ l ∈ "bvecsfi".toList, lowerChar c = l ↔ c = l ∨ c = l.toUpper := by
  by_cases h : 'A' ≤ c ∧ c ≤ 'Z'
  · have h1 : 65 ≤ c.toNat := UInt32.le_iff_toNat_le.1 (Char.le_def.1 h.1)
    have h2 : c.toNat ≤ 90 := UInt32.le_iff_toNat_le.1 (Char.le_def.1 h.2)
    have hc : c = Char.ofNat c.toNat := (Char.ofNat_toNat c).symm
    generalize c.toNat = n at h1 h2 hc
    subst hc
    clear h
    interval_cases n <;> decide +kernel
  · intro l hl
    unfold lowerChar
    rw [if_neg h]
    have hu : ∀ l ∈ "bvecsfi".toList, 'A' ≤ l.toUpper ∧ l.toUpper ≤ 'Z' := by decide +kernel
    refine ⟨Or.inl, fun h3 => h3.elim id fun h3 => absurd (hu l hl) ?_⟩
    rwa [← h3]

theorem suffix_lower {ext : List Char} (hx : ∀ l ∈ ext, l ∈ "bvecsfi".toList) (name : List Char) :
    ext <:+ name.map lowerChar ↔ EndsWith ext name := by
  have key : ∀ ext : List Char, (∀ l ∈ ext, l ∈ "bvecsfi".toList) → ∀ tail : List Char, tail.map lowerChar = ext ↔
      List.Forall₂ (fun c l => c = l ∨ c = l.toUpper) tail ext := by
    intro ext
    induction ext with
    | nil => intro _ tail; simp
    | cons l ext ih =>
      intro hx tail
      cases tail with
      | nil => simp
      | cons c tail =>
        rw [List.map_cons, List.cons.injEq, List.forall₂_cons, lowerChar_eq c l (hx l (by simp)),
          ih (fun l h => hx l (by simp [h]))]
  constructor
  · rintro ⟨a, ha⟩
    obtain ⟨stem, tail, e, -, e2⟩ := List.map_eq_append_iff.1 ha.symm
    exact ⟨stem, tail, e, (key ext hx tail).1 e2⟩
  · rintro ⟨stem, tail, rfl, h⟩
    exact ⟨stem.map lowerChar, by rw [List.map_append, (key ext hx tail).2 h]⟩

theorem suffix_format (t : VecsType) (name : List Char) :
    t.format <:+ name.map lowerChar ↔ EndsWith (vecsExtension t) name := by
  have : t.format = vecsExtension t := by cases t <;> decide +kernel
  rw [this]
  exact suffix_lower (by cases t <;> decide +kernel) name

/-- C76: the name has to end with the format string, in upper or lower case; shorter names are rejected as well. -/
theorem c76_name (t : VecsType) (filename : List Char) (hl : filename.length < 2 ^ 63) :
    vecsNameOk t filename = true ↔ EndsWith (vecsExtension t) filename := by
  rw [← suffix_format]
  have hf : t.format.length = 5 := by cases t <;> rfl
  unfold vecsNameOk
  simp only [List.length_map, hf]
  by_cases h : filename.length < 5
  · have e : (filename.length + 2 ^ 64 - 5) % 2 ^ 64 = filename.length + 2 ^ 64 - 5 := Nat.mod_eq_of_lt (by omega)
    rw [e, if_pos (by omega)]
    simp only [Bool.false_eq_true, false_iff]
    intro hs
    have := hs.length_le
    rw [hf, List.length_map] at this
    omega
  · have e : (filename.length + 2 ^ 64 - 5) % 2 ^ 64 = filename.length - 5 := by
      rw [show filename.length + 2 ^ 64 - 5 = filename.length - 5 + 2 ^ 64 by omega, Nat.add_mod_right,
        Nat.mod_eq_of_lt (by omega)]
    rw [e, if_neg (by omega), beq_iff_eq, List.take_of_length_le (by simp; omega)]
    constructor
    · intro h2
      rw [← h2]
      exact List.drop_suffix _ _
    · intro h2
      have := List.suffix_iff_eq_drop.1 h2
      rw [hf, List.length_map] at this
      exact this.symm

/-- C76: a file of the format whose vectors have the dimension `N` of the array is read as written.  Missing: that
files of another dimension are rejected (`c76_accepts_everything`, `c76_false`). -/
theorem c76_read_partial {t : VecsType} {filename : List Char} (hl : filename.length < 2 ^ 63)
    (hf : EndsWith (vecsExtension t) filename) {int : Codec Int} {c : Codec τ} {N : Nat} (h0 : 0 < int.size)
    (hi : int.Good (N : Int)) {rows : List (List τ)} (hr : ∀ r ∈ rows, r.length = N ∧ ∀ x ∈ r, c.Good x)
    (pad : Nat → Byte) :
    readXvecs t int c N filename (some (xvecs (int.enc pad) (c.enc pad) rows)) = .ok rows [] := by
  unfold readXvecs
  rw [if_pos ((c76_name t filename hl).2 hf)]
  dsimp only
  rw [xvecs_length hi hr, Nat.mul_div_cancel _ (by omega)]
  have := readRows_xvecs hi hr pad []
  rwa [List.append_nil] at this

/-- C76 is violated: if all bytes are values of the types (numbers), then every file with a good name is accepted,
whatever dimensions its vectors have; the rows returned are blocks of the file. -/
theorem c76_accepts_everything {t : VecsType} {filename : List Char} (hl : filename.length < 2 ^ 63)
    (hf : EndsWith (vecsExtension t) filename) {int : Codec Int} {c : Codec τ}
    (hi : ∀ bs, bs.length = int.size → int.dec bs ≠ none) (hc : ∀ bs, bs.length = c.size → c.dec bs ≠ none)
    (N : Nat) (bytes : List Byte) :
    ∃ rows rest, readXvecs t int c N filename (some bytes) = .ok rows rest ∧
      rows.length = bytes.length / (int.size + c.size * N) ∧ ∀ r ∈ rows, r.length = N := by
  unfold readXvecs
  rw [if_pos ((c76_name t filename hl).2 hf)]
  obtain ⟨v, e, h1, h2⟩ := readRows_total hi hc N _ bytes (Nat.div_mul_le_self _ _)
  exact ⟨v, _, e, h1, h2⟩

/-- `int` of 32 bits, little endian. -/
private def int32 : Codec Int where
  size := 4
  align := 4
  enc _ v := leBytes 4 (BitVec.ofInt 32 v).toNat
  dec bs := some (BitVec.ofNat 32 (leValue bs)).toInt

private theorem int32_good {v : Int} (h : (leBytes 4 (BitVec.ofInt 32 v).toNat).length = 4 ∧
    int32.dec (leBytes 4 (BitVec.ofInt 32 v).toNat) = some v) : int32.Good v := fun _ => h

/-- C76 is violated: a single vector of dimension 3 is read as two vectors of dimension 1, the second of which is its
last coordinate. -/
theorem c76_false : readXvecs .int int32 int32 1 "a.ivecs".toList
    (some (xvecs (int32.enc fun _ => 0) (int32.enc fun _ => 0) [[10, 20, 30]])) = .ok [[10], [30]] [] := by
  decide +kernel

/-- The hypotheses of `c76_read_partial` hold for 32-bit integers. -/
example : readXvecs .int int32 int32 2 "A.IVECS".toList
    (some (xvecs (int32.enc fun _ => 0) (int32.enc fun _ => 0) [[10, -20], [30, 40]])) =
      .ok [[10, -20], [30, 40]] [] := by
  refine c76_read_partial (t := .int) (by decide) ((suffix_format .int _).1 (by decide +kernel)) (by decide) (N := 2) ?_ ?_ _
  · exact int32_good (by decide +kernel)
  · intro r hr
    simp only [List.mem_cons, List.not_mem_nil, or_false] at hr
    rcases hr with rfl | rfl
    all_goals
      refine ⟨rfl, fun x hx => ?_⟩
      simp only [List.mem_cons, List.not_mem_nil, or_false] at hx
      rcases hx with rfl | rfl <;> exact int32_good (by decide +kernel)

/-- Names: too short; another format; no dot is needed. -/
example : vecsNameOk .float "vecs".toList = false ∧ vecsNameOk .float "a.ivecs".toList = false ∧
    vecsNameOk .float "fvecs".toList = true := by decide +kernel

end Xvecs

/-! ## C77: poses of scans -/

section Pose
variable {α : Type} [CommRing α]

/-- Squared distance (specification). -/
def sqDist (p q : Pt α 3) : α := (p 0 - q 0) ^ 2 + (p 1 - q 1) ^ 2 + (p 2 - q 2) ^ 2

/-- Rotations about the axes by an angle with sine `s` and cosine `c`: counterclockwise seen from the positive end
(specification). -/
def rotX (s c : α) (p : Pt α 3) : Pt α 3 := ![p 0, c * p 1 - s * p 2, s * p 1 + c * p 2]
def rotY (s c : α) (p : Pt α 3) : Pt α 3 := ![s * p 2 + c * p 0, p 1, c * p 2 - s * p 0]
def rotZ (s c : α) (p : Pt α 3) : Pt α 3 := ![c * p 0 - s * p 1, s * p 0 + c * p 1, p 2]

/-- C77: the pose turns about the z axis, then about the y axis, then about the x axis, and shifts. -/
theorem c77_euler (sx cx sy cy sz cz : α) (t p : Pt α 3) :
    (Isometry.fromEuler sx cx sy cy sz cz t).transform p =
      fun i => rotX sx cx (rotY sy cy (rotZ sz cz p)) i + t i := by
  funext i
  fin_cases i <;>
    simp [Isometry.transform, Isometry.fromEuler, rotX, rotY, rotZ] <;> ring

/-- C77: "Transformation that preserves distances between points." -/
theorem c77_isometry {sx cx sy cy sz cz : α} (hx : sx ^ 2 + cx ^ 2 = 1) (hy : sy ^ 2 + cy ^ 2 = 1)
    (hz : sz ^ 2 + cz ^ 2 = 1) (t p q : Pt α 3) :
    sqDist ((Isometry.fromEuler sx cx sy cy sz cz t).transform p)
      ((Isometry.fromEuler sx cx sy cy sz cz t).transform q) = sqDist p q := by
  have eX : ∀ u v : Pt α 3, sqDist (rotX sx cx u) (rotX sx cx v) = sqDist u v := by
    intro u v
    simp only [sqDist, rotX, Matrix.cons_val]
    linear_combination ((u 1 - v 1) ^ 2 + (u 2 - v 2) ^ 2) * hx
  have eY : ∀ u v : Pt α 3, sqDist (rotY sy cy u) (rotY sy cy v) = sqDist u v := by
    intro u v
    simp only [sqDist, rotY, Matrix.cons_val]
    linear_combination ((u 0 - v 0) ^ 2 + (u 2 - v 2) ^ 2) * hy
  have eZ : ∀ u v : Pt α 3, sqDist (rotZ sz cz u) (rotZ sz cz v) = sqDist u v := by
    intro u v
    simp only [sqDist, rotZ, Matrix.cons_val]
    linear_combination ((u 0 - v 0) ^ 2 + (u 1 - v 1) ^ 2) * hz
  rw [c77_euler, c77_euler, ← (eX _ _).trans ((eY _ _).trans (eZ p q))]
  simp only [sqDist, add_sub_add_right_eq_sub]

/-- Volume spanned by three vectors (specification). -/
def det3 (u v w : Pt α 3) : α :=
  u 0 * (v 1 * w 2 - v 2 * w 1) - u 1 * (v 0 * w 2 - v 2 * w 0) + u 2 * (v 0 * w 1 - v 1 * w 0)

/-- C77: no mirror image: the volume spanned by four points keeps its sign. -/
theorem c77_orientation {sx cx sy cy sz cz : α} (hx : sx ^ 2 + cx ^ 2 = 1) (hy : sy ^ 2 + cy ^ 2 = 1)
    (hz : sz ^ 2 + cz ^ 2 = 1) (t o u v w : Pt α 3) :
    let T := (Isometry.fromEuler sx cx sy cy sz cz t).transform
    det3 (fun i => T u i - T o i) (fun i => T v i - T o i) (fun i => T w i - T o i) =
      det3 (fun i => u i - o i) (fun i => v i - o i) (fun i => w i - o i) := by
  have eX : ∀ o u v w : Pt α 3,
      det3 (fun i => rotX sx cx u i - rotX sx cx o i) (fun i => rotX sx cx v i - rotX sx cx o i)
        (fun i => rotX sx cx w i - rotX sx cx o i) =
      det3 (fun i => u i - o i) (fun i => v i - o i) (fun i => w i - o i) := by
    intro o u v w
    rw [← one_mul (det3 (fun i => u i - o i) _ _), ← hx]
    simp only [det3, rotX, Matrix.cons_val]
    ring
  have eY : ∀ o u v w : Pt α 3,
      det3 (fun i => rotY sy cy u i - rotY sy cy o i) (fun i => rotY sy cy v i - rotY sy cy o i)
        (fun i => rotY sy cy w i - rotY sy cy o i) =
      det3 (fun i => u i - o i) (fun i => v i - o i) (fun i => w i - o i) := by
    intro o u v w
    rw [← one_mul (det3 (fun i => u i - o i) _ _), ← hy]
    simp only [det3, rotY, Matrix.cons_val]
    ring
  have eZ : ∀ o u v w : Pt α 3,
      det3 (fun i => rotZ sz cz u i - rotZ sz cz o i) (fun i => rotZ sz cz v i - rotZ sz cz o i)
        (fun i => rotZ sz cz w i - rotZ sz cz o i) =
      det3 (fun i => u i - o i) (fun i => v i - o i) (fun i => w i - o i) := by
    intro o u v w
    rw [← one_mul (det3 (fun i => u i - o i) _ _), ← hz]
    simp only [det3, rotZ, Matrix.cons_val]
    ring
  intro T
  have hT : ∀ p, T p = fun i => rotX sx cx (rotY sy cy (rotZ sz cz p)) i + t i := c77_euler sx cx sy cy sz cz t
  simp only [hT, add_sub_add_right_eq_sub]
  rw [eX, eY, eZ]

end Pose

/-- C77 for real angles. -/
theorem c77_real (e : Fin 3 → ℝ) (t p q : Pt ℝ 3) :
    let T := Isometry.fromEuler (Real.sin (e 0)) (Real.cos (e 0)) (Real.sin (e 1)) (Real.cos (e 1))
      (Real.sin (e 2)) (Real.cos (e 2)) t
    sqDist (T.transform p) (T.transform q) = sqDist p q :=
  c77_isometry (Real.sin_sq_add_cos_sq _) (Real.sin_sq_add_cos_sq _) (Real.sin_sq_add_cos_sq _) t p q

/-- A pose with three different angles (3-4-5, 5-12-13, a right angle) moves the point (1, 2, 3). -/
example : (Isometry.fromEuler (3/5 : ℚ) (4/5) (5/13) (12/13) 1 0 ![10, 0, 0]).transform ![1, 2, 3] =
    ![121/13, -86/65, 223/65] := by
  funext i
  fin_cases i <;> simp only [Isometry.transform, Isometry.fromEuler, Matrix.cons_val] <;> norm_num

/-! ## C78: lines of scans -/

section Scan
variable {α : Type} [Zero α] [Add α] [Sub α] [Neg α] [Mul α]

/-- C78: a line that begins with three words gives the point of these three numbers, moved by the pose; what follows
(the reflectance) is ignored.  Missing: that lines with fewer words give no point (`c78_two`, `c78_blank`). -/
theorem c78_line_partial (strtod : List Char → α) (pose : Isometry α) {g0 g1 g2 a b c rest : List Char}
    (h0 : ∀ x ∈ g0, blank x) (h1 : Gap g1) (h2 : Gap g2) (ha : Word a) (hb : Word b) (hc : Word c)
    (hr : ∀ x, rest.head? = some x → blank x) :
    readScanLine strtod pose (g0 ++ (a ++ (g1 ++ (b ++ (g2 ++ (c ++ rest)))))) =
      pose.transform ![strtod a, strtod b, strtod c] := by
  have hg : ∀ {g l : List Char}, Gap g → ∀ x, (g ++ l).head? = some x → blank x := by
    intro g l hg x hx
    cases g with
    | nil => exact absurd rfl hg.1
    | cons y g =>
      simp only [List.cons_append, List.head?_cons, Option.some.injEq] at hx
      exact hg.2 x (by simp [hx])
  unfold readScanLine
  simp only [nextToken_word _ h0 ha (hg h1), nextToken_word _ h1.2 hb (hg h2), nextToken_word _ h2.2 hc hr]

/-- C78 is violated: a line with two words repeats the second number. -/
theorem c78_two (strtod : List Char → α) (pose : Isometry α) {g0 g1 g2 a b : List Char}
    (h0 : ∀ x ∈ g0, blank x) (h1 : Gap g1) (h2 : ∀ x ∈ g2, blank x) (ha : Word a) (hb : Word b) :
    readScanLine strtod pose (g0 ++ (a ++ (g1 ++ (b ++ g2)))) =
      pose.transform ![strtod a, strtod b, strtod b] := by
  have hg : ∀ x, (g1 ++ (b ++ g2)).head? = some x → blank x := by
    intro x hx
    cases g1 with
    | nil => exact absurd rfl h1.1
    | cons y g =>
      simp only [List.cons_append, List.head?_cons, Option.some.injEq] at hx
      exact h1.2 x (by simp [hx])
  unfold readScanLine
  simp only [nextToken_word _ h0 ha hg, nextToken_word _ h1.2 hb
    (fun x hx => h2 x (List.mem_of_mem_head? hx)), nextToken_blank _ h2]

/-- C78 is violated: a blank line gives a point as well. -/
theorem c78_blank (strtod : List Char → α) (pose : Isometry α) {g : List Char} (h : ∀ x ∈ g, blank x) :
    readScanLine strtod pose g = pose.transform ![strtod [], strtod [], strtod []] := by
  unfold readScanLine
  simp only [nextToken_blank _ h, nextToken_blank _ (g := []) (by simp)]

/-- C78: the lines of a text are what is between the line breaks. -/
theorem c78_lines (lines : List (List Char)) (h : ∀ l ∈ lines, '\n' ∉ l) (last : List Char) (hl : '\n' ∉ last) :
    textLines ((lines.flatMap fun l => l ++ ['\n']) ++ last) = lines ++ if last = [] then [] else [last] := by
  induction lines with
  | nil =>
    simp only [List.flatMap_nil, List.nil_append]
    induction last with
    | nil => rfl
    | cons c l ih =>
      have hc : c ≠ '\n' := fun e => hl (by simp [e])
      simp only [textLines, hc, if_false, reduceCtorEq]
      rw [ih fun hm => hl (by simp [hm])]
      by_cases e : l = []
      · simp [e]
      · simp [e]
  | cons l lines ih =>
    have ih' := ih fun x hx => h x (by simp [hx])
    have hn : '\n' ∉ l := h l (by simp)
    clear ih h
    simp only [List.flatMap_cons, List.append_assoc, List.cons_append, List.nil_append] at ih' ⊢
    induction l with
    | nil => simp only [List.nil_append, textLines, if_true, ih']
    | cons c l ih2 =>
      have hc : c ≠ '\n' := fun e => hn (by simp [e])
      simp only [List.cons_append, textLines, hc, if_false]
      rw [ih2 fun hm => hn (by simp [hm])]

/-- C78: one point for each line of each file, in order, appended to the points that are there already. -/
theorem c78_points {γ : Type} (strtod : List Char → α) (cast : α → γ) (scans : List (Isometry α × List Char))
    (points : List (Pt γ 3)) :
    readUosr strtod cast scans points = points ++ scans.flatMap fun s =>
      (textLines s.2).map fun line i => cast (readScanLine strtod s.1 line i) := by
  have inner : ∀ (f : List Char → Pt γ 3) (l : List (List Char)) (acc : List (Pt γ 3)),
      l.foldl (fun acc x => acc ++ [f x]) acc = acc ++ l.map f := by
    intro f l
    induction l with
    | nil => simp
    | cons x l ih => intro acc; simp [ih]
  unfold readUosr
  induction scans generalizing points with
  | nil => simp
  | cons s scans ih =>
    rw [List.foldl_cons, inner (fun line i => cast (readScanLine strtod s.1 line i)), ih, List.flatMap_cons,
      List.append_assoc]

end Scan

/-- C78 is violated, concretely: "1 2" followed by an empty line gives the points (1, 2, 2) and (0, 0, 0).  The pose
is the identity, numbers have one digit. -/
theorem c78_false :
    (readUosr (fun w => match w with | [c] => (c.toNat : Int) - 48 | _ => 0) id
      [(Isometry.fromEuler 0 1 0 1 0 1 ![0, 0, 0], "1 2\n\n".toList)] []).map (fun p => (p 0, p 1, p 2)) =
      [(1, 2, 2), (0, 0, 0)] := by decide +kernel

/-- The hypotheses of `c78_line_partial`. -/
example (strtod : List Char → Int) (pose : Isometry Int) :
    readScanLine strtod pose " 1 -25\t3 0.5".toList =
      pose.transform ![strtod "1".toList, strtod "-25".toList, strtod "3".toList] :=
  c78_line_partial strtod pose (g0 := [' ']) (g1 := [' ']) (g2 := ['\t']) (a := ['1']) (b := ['-', '2', '5'])
    (c := ['3']) (rest := " 0.5".toList) (by simp [blank]) (by simp [Gap, blank]) (by simp [Gap, blank])
    (by simp [Word, blank]) (by simp [Word, blank]) (by simp [Word, blank]) (by simp [blank])

end Pico.Props
