import Verif.Proof.Faulty
import Verif.Props.Stored
import Verif.Model.Header

/-!
# C141: a file that loads is a file that save writes

The theorems of C28 start from a tree.  Here the start is a file, from wherever it comes: if it loads, then it
is the file of the loaded tree, up to the bytes of the file that are padding.
-/

namespace Pico.Props

open Pico

section Codecs
variable {σ τ : Type}

/-- A sequence of bytes that is a value is its object representation: with the padding bytes as they are, the
value is represented by exactly these bytes. -/
def Codec.Canonical (c : Codec τ) : Prop :=
  ∀ bs v, bs.length = c.size → c.dec bs = some v → ∀ pad, (∀ i < c.size, bs[i]? = some (pad i)) →
    c.enc pad v = bs

/-- A type without padding bytes. -/
def Codec.PadFree (c : Codec τ) : Prop := ∀ pad pad' v, c.enc pad v = c.enc pad' v

theorem canonical_unsigned (w : Nat) : Codec.Canonical (.unsigned w) := by
  intro bs v hl hv pad _
  simp only [Codec.unsigned, Option.some.injEq] at hl hv ⊢
  rw [← hv, ← hl, leBytes_leValue]

theorem canonical_signed (w : Nat) : Codec.Canonical (.signed w) := by
  intro bs v hl hv pad _
  simp only [Codec.signed] at hl hv ⊢
  split at hv
  · simp only [Option.some.injEq] at hv
    rw [← hv, ← hl, leBytes_leValue]
  · simp at hv

theorem canonical_bool : Codec.Canonical .bool := by
  intro bs v hl hv pad _
  simp only [Codec.bool] at hl hv ⊢
  split at hv
  · simp_all
  · split at hv <;> simp_all

theorem canonical_raw (n : Nat) : Codec.Canonical (.raw n) := by
  intro bs v _ hv pad _
  simpa [Codec.raw] using hv.symm

/-- Padding bytes that are those of the list. -/
theorem padBytes_of {bs : List Byte} {pad : Nat → Byte} {a n : Nat}
    (h : ∀ i < n, bs[a + i]? = some (pad (a + i))) : padBytes pad a n = (bs.drop a).take n := by
  apply List.ext_getElem?
  intro i
  by_cases hi : i < n
  · simp [padBytes, hi, h i hi]
  · simp [padBytes, hi]

theorem canonical_seq {a : Codec σ} {b : Codec τ} (ha : Codec.Canonical a) (hb : Codec.Canonical b) :
    Codec.Canonical (a.seq b) := by
  rintro bs ⟨x, y⟩ hl hv pad hp
  simp only [Codec.seq] at hl hv hp ⊢
  cases hx : a.dec (bs.take a.size) with
  | none => simp [hx] at hv
  | some x' =>
    cases hy : b.dec (bs.drop (a.size + gapTo a.size b.align)) with
    | none => simp [hx, hy] at hv
    | some y' =>
      simp only [hx, hy, Option.some.injEq, Prod.mk.injEq] at hv
      obtain ⟨rfl, rfl⟩ := hv
      rw [ha _ _ (by simp; omega) hx pad fun i hi => by
          rw [List.getElem?_take, if_pos hi]; exact hp i (by omega),
        hb _ _ (by simp; omega) hy _ fun i hi => by
          rw [List.getElem?_drop]; exact hp _ (by omega),
        padBytes_of fun i hi => hp _ (by omega), List.append_assoc, ← List.drop_drop,
        List.take_append_drop, List.take_append_drop]

theorem canonical_close {a : Codec σ} (ha : Codec.Canonical a) : Codec.Canonical a.close := by
  intro bs v hl hv pad hp
  simp only [Codec.close] at hl hv hp ⊢
  rw [ha _ _ (by simp; omega) hv pad fun i hi => by
      rw [List.getElem?_take, if_pos hi]; exact hp i (by omega),
    padBytes_of fun i hi => hp _ (by omega),
    List.take_of_length_le (l := bs.drop a.size) (by simp; omega), List.take_append_drop]

theorem canonical_view {a : Codec σ} {fwd : τ → σ} {bwd : σ → Option τ} (ha : Codec.Canonical a)
    (h : ∀ x v, bwd x = some v → fwd v = x) : Codec.Canonical (a.view fwd bwd) := by
  intro bs v hl hv pad hp
  simp only [Codec.view] at hl hv hp ⊢
  cases hx : a.dec bs with
  | none => simp [hx] at hv
  | some x =>
    simp only [hx, Option.bind_some] at hv
    rw [h x v hv]
    exact ha bs x hl hx pad hp

theorem padFree_seq {a : Codec σ} {b : Codec τ} (ha : Codec.PadFree a) (hb : Codec.PadFree b)
    (hg : gapTo a.size b.align = 0) : Codec.PadFree (a.seq b) := by
  intro pad pad' v
  simp only [Codec.seq, hg, padBytes, List.range_zero, List.map_nil]
  rw [ha pad pad', hb]

theorem padFree_close {a : Codec σ} (ha : Codec.PadFree a) (hg : gapTo a.size a.align = 0) :
    Codec.PadFree a.close := by
  intro pad pad' v
  simp only [Codec.close, hg, padBytes, List.range_zero, List.map_nil]
  rw [ha pad pad']

theorem padFree_view {a : Codec σ} {fwd : τ → σ} {bwd : σ → Option τ} (ha : Codec.PadFree a) :
    Codec.PadFree (a.view fwd bwd) := fun pad pad' v => ha pad pad' (fwd v)

end Codecs

section Platforms
variable {α : Type}

/-- Every type of the platform is canonical. -/
structure Platform.Canonical (P : Platform α) : Prop where
  sizeT : Codec.Canonical P.sizeT
  bool : Codec.Canonical P.bool
  index : Codec.Canonical P.index
  int : Codec.Canonical P.int
  scalar : Codec.Canonical P.scalar

/-- No fundamental type of the platform has padding. -/
structure Platform.PadFree (P : Platform α) : Prop where
  sizeT : Codec.PadFree P.sizeT
  bool : Codec.PadFree P.bool
  index : Codec.PadFree P.index
  int : Codec.PadFree P.int
  scalar : Codec.PadFree P.scalar

theorem canonical_le64 {c : Codec α} (h : Codec.Canonical c) : Platform.Canonical (Platform.le64 c) :=
  ⟨canonical_unsigned 8, canonical_bool, canonical_signed 4, canonical_signed 4, h⟩

theorem padFree_le64 {c : Codec α} (h : Codec.PadFree c) : Platform.PadFree (Platform.le64 c) :=
  ⟨fun _ _ _ => rfl, fun _ _ _ => rfl, fun _ _ _ => rfl, fun _ _ _ => rfl, h⟩

variable {P : Platform α}

theorem Platform.Canonical.leaf (h : Platform.Canonical P) : Codec.Canonical P.leaf :=
  canonical_close (canonical_seq h.index h.index)

theorem Platform.Canonical.splitDim (h : Platform.Canonical P) (d : Nat) : Codec.Canonical (P.splitDim d) :=
  canonical_view h.int fun x v hv => by
    split at hv
    · simp only [Option.some.injEq] at hv
      rw [← hv]
    · simp at hv

theorem Platform.Canonical.branch1 (h : Platform.Canonical P) (d : Nat) : Codec.Canonical (P.branch1 d) :=
  canonical_view (canonical_close (canonical_seq (canonical_seq (h.splitDim d) h.scalar) h.scalar))
    fun x v hv => by
      simp only [Option.some.injEq] at hv
      rw [← hv]

theorem Platform.Canonical.branch2 (h : Platform.Canonical P) (d : Nat) : Codec.Canonical (P.branch2 d) :=
  canonical_view (canonical_close (canonical_seq (canonical_seq (canonical_seq (canonical_seq
    (h.splitDim d) h.scalar) h.scalar) h.scalar) h.scalar))
    fun x v hv => by
      simp only [Option.some.injEq] at hv
      rw [← hv]

end Platforms

section Files
variable {σ τ α β : Type} {d : Nat}

/-- The bytes of the file, by position. -/
def bytesOf (file : List Byte) : Nat → Byte := fun i => file.getD i 0

/-- Writing what was read gives the file again. -/
def Rewrites (file : List Byte) (f : τ → List Byte → List Byte) (g : List Byte → Load τ) : Prop :=
  ∀ out s v rest, out ++ s = file → g s = .ok v rest → f v out ++ rest = file

variable {file : List Byte}

theorem rewrites_value {c : Codec τ} (hc : Codec.Canonical c) :
    Rewrites file (fun v => writeValue (bytesOf file) c v) (readValue c) := by
  intro out s v rest hs h
  unfold readValue at h
  split at h
  · simp at h
  · rename_i hl
    cases hd : c.dec (s.take c.size) with
    | none => simp [hd] at h
    | some w =>
      simp only [hd, Load.ok.injEq] at h
      obtain ⟨rfl, rfl⟩ := h
      have := hc _ _ (by simp; omega) hd (fun i => bytesOf file (out.length + i)) fun i hi => by
        rw [List.getElem?_take, if_pos hi, bytesOf, ← hs, List.getD_eq_getElem?_getD,
          List.getElem?_append_right (by omega), Nat.add_sub_cancel_left,
          List.getElem?_eq_getElem (by omega)]
        rfl
      show out ++ c.enc (fun i => bytesOf file (out.length + i)) w ++ s.drop c.size = file
      rw [this, List.append_assoc, List.take_append_drop, hs]

theorem rewrites_array {c : Codec τ} (hc : Codec.Canonical c) (n : Nat) :
    Rewrites file (fun v => writeArray (bytesOf file) c v) (readArray c n) := by
  induction n with
  | zero =>
    intro out s v rest hs h
    simp only [readArray, Load.ok.injEq] at h
    obtain ⟨rfl, rfl⟩ := h
    simpa [writeArray] using hs
  | succ n ih =>
    intro out s v rest hs h
    obtain ⟨x, s1, h1, h⟩ := Load.bind_ok h
    obtain ⟨l, s2, h2, h⟩ := Load.bind_ok h
    simp only [Load.ok.injEq] at h
    obtain ⟨rfl, rfl⟩ := h
    have := ih _ _ _ _ (rewrites_value hc _ _ _ _ hs h1) h2
    exact this

theorem length_of_readArray {c : Codec τ} {n : Nat} {s rest : List Byte} {l : List τ}
    (h : readArray c n s = .ok l rest) : l.length = n := by
  induction n generalizing s rest l with
  | zero =>
    simp only [readArray, Load.ok.injEq] at h
    simp [← h.1]
  | succ n ih =>
    obtain ⟨x, s1, h1, h⟩ := Load.bind_ok h
    obtain ⟨l, s2, h2, h⟩ := Load.bind_ok h
    simp only [Load.ok.injEq] at h
    simp [← h.1, ih h2]

theorem rewrites_vector {sizeT : Codec Nat} {c : Codec τ} (hn : Codec.Canonical sizeT) (hc : Codec.Canonical c) :
    Rewrites file (fun v => writeVector (bytesOf file) sizeT c v) (readVector sizeT c) := by
  intro out s v rest hs h
  obtain ⟨n, s1, h1, h⟩ := Load.bind_ok h
  have := length_of_readArray h
  subst this
  exact rewrites_array hc _ _ _ _ _ (rewrites_value hn _ _ _ _ hs h1) h

theorem rewrites_pt {c : Codec τ} (hc : Codec.Canonical c) (d : Nat) :
    Rewrites file (fun v => writeArray (bytesOf file) c (List.ofFn v)) (readPt c d) := by
  induction d with
  | zero =>
    intro out s v rest hs h
    simp only [readPt, Load.ok.injEq] at h
    obtain ⟨rfl, rfl⟩ := h
    simpa [writeArray] using hs
  | succ n ih =>
    intro out s v rest hs h
    obtain ⟨x, s1, h1, h⟩ := Load.bind_ok h
    obtain ⟨l, s2, h2, h⟩ := Load.bind_ok h
    simp only [Load.ok.injEq] at h
    obtain ⟨rfl, rfl⟩ := h
    have := ih _ _ _ _ (rewrites_value hc _ _ _ _ hs h1) h2
    simpa [List.ofFn_succ, writeArray] using this

theorem rewrites_node {P : Platform α} {branch : Codec β} (hP : Platform.Canonical P)
    (hb : Codec.Canonical branch) (fuel : Nat) :
    Rewrites file (fun v => writeNode (bytesOf file) P branch v) (readNode P branch fuel) := by
  induction fuel with
  | zero => intro out s v rest _ h; simp [readNode] at h
  | succ fuel ih =>
    intro out s v rest hs h
    obtain ⟨isLeaf, s1, h1, h⟩ := Load.bind_ok h
    have e1 := rewrites_value hP.bool _ _ _ _ hs h1
    cases isLeaf with
    | true =>
      simp only [if_true] at h
      obtain ⟨x, s2, h2, h⟩ := Load.bind_ok h
      simp only [Load.ok.injEq] at h
      obtain ⟨rfl, rfl⟩ := h
      exact rewrites_value hP.leaf _ _ _ _ e1 h2
    | false =>
      simp only [Bool.false_eq_true, if_false] at h
      obtain ⟨b, s2, h2, h⟩ := Load.bind_ok h
      obtain ⟨l, s3, h3, h⟩ := Load.bind_ok h
      obtain ⟨r, s4, h4, h⟩ := Load.bind_ok h
      simp only [Load.ok.injEq] at h
      obtain ⟨rfl, rfl⟩ := h
      have := ih _ _ _ _ (ih _ _ _ _ (rewrites_value hb _ _ _ _ e1 h2) h3) h4
      exact this

theorem rewrites_data {P : Platform α} {branch : Codec β} (hP : Platform.Canonical P)
    (hb : Codec.Canonical branch) (d fuel : Nat) :
    Rewrites file (fun v => writeData (bytesOf file) P branch v) (readData P branch d fuel) := by
  intro out s v rest hs h
  obtain ⟨ix, s1, h1, h⟩ := Load.bind_ok h
  obtain ⟨mn, s2, h2, h⟩ := Load.bind_ok h
  obtain ⟨mx, s3, h3, h⟩ := Load.bind_ok h
  obtain ⟨root, s4, h4, h⟩ := Load.bind_ok h
  simp only [Load.ok.injEq] at h
  obtain ⟨rfl, rfl⟩ := h
  exact rewrites_node hP hb fuel _ _ _ _ (rewrites_pt hP.scalar d _ _ _ _ (rewrites_pt hP.scalar d _ _ _ _
    (rewrites_vector hP.sizeT hP.index _ _ _ _ hs h1) h2) h3) h4

/-- `load` of a static dimension and `save`, somewhere in a file. -/
theorem rewrites_static {P : Platform α} {branch : Codec β} (hP : Platform.Canonical P)
    (hb : Codec.Canonical branch) {fuel : Nat} {out s s' rest : List Byte} {t : TreeData α d β}
    (hs : out ++ s = file) (hd : readValue P.sizeT s = .ok d s')
    (h : loadStatic P branch d fuel s = .ok t rest) :
    saveData (bytesOf file) P branch t out ++ rest = file := by
  obtain ⟨k, s1, h1, h⟩ := Load.bind_ok h
  rw [hd] at h1
  simp only [Load.ok.injEq] at h1
  obtain ⟨rfl, rfl⟩ := h1
  exact rewrites_data hP hb _ _ _ _ _ _ (rewrites_value hP.sizeT _ _ _ _ hs hd) h

/-- The same for a dimension known at run time. -/
theorem rewrites_dynamic {P : Platform α} {B : Nat → Type} {branch : ∀ d, Codec (B d)}
    (hP : Platform.Canonical P) (hb : ∀ d, Codec.Canonical (branch d)) {fuel : Nat} {out s rest : List Byte}
    {t : Σ d, TreeData α d (B d)} (hs : out ++ s = file) (h : loadDynamic P branch fuel s = .ok t rest) :
    saveData (bytesOf file) P (branch t.1) t.2 out ++ rest = file := by
  obtain ⟨k, s1, h1, h⟩ := Load.bind_ok h
  obtain ⟨t, s2, h2, h⟩ := Load.bind_ok h
  simp only [Load.ok.injEq] at h
  obtain ⟨rfl, rfl⟩ := h
  exact rewrites_data hP (hb k) _ _ _ _ _ _ (rewrites_value hP.sizeT _ _ _ _ hs h1) h2

end Files

section Pad
variable {τ α β : Type} {d : Nat} {pad pad' : Nat → Byte}

theorem writeValue_padFree {c : Codec τ} (h : Codec.PadFree c) (v : τ) (out : List Byte) :
    writeValue pad c v out = writeValue pad' c v out := by
  rw [writeValue, writeValue, h]

theorem writeArray_padFree {c : Codec τ} (h : Codec.PadFree c) (l : List τ) (out : List Byte) :
    writeArray pad c l out = writeArray pad' c l out := by
  induction l generalizing out with
  | nil => rfl
  | cons x l ih =>
    show writeArray pad c l (writeValue pad c x out) = writeArray pad' c l (writeValue pad' c x out)
    rw [writeValue_padFree h, ih]

theorem writeNode_padFree {P : Platform α} {branch : Codec β} (hB : Codec.PadFree P.bool)
    (hL : Codec.PadFree P.leaf) (hb : Codec.PadFree branch) (t : Tree β) (out : List Byte) :
    writeNode pad P branch t out = writeNode pad' P branch t out := by
  induction t generalizing out with
  | leaf b e =>
    simp only [writeNode]
    rw [writeValue_padFree hB, writeValue_padFree hL]
  | branch data l r ih1 ih2 =>
    simp only [writeNode]
    rw [writeValue_padFree hB, writeValue_padFree hb, ih1, ih2]

theorem saveData_padFree {P : Platform α} {branch : Codec β} (hP : Platform.PadFree P)
    (hL : Codec.PadFree P.leaf) (hb : Codec.PadFree branch) (t : TreeData α d β) (out : List Byte) :
    saveData pad P branch t out = saveData pad' P branch t out := by
  simp only [saveData, writeData, writeVector]
  rw [writeNode_padFree (pad' := pad') hP.bool hL hb, writeArray_padFree (pad' := pad') hP.scalar,
    writeArray_padFree (pad' := pad') hP.scalar (List.ofFn t.rootBox.min),
    writeArray_padFree (pad' := pad') hP.index, writeValue_padFree (pad' := pad') hP.sizeT t.indices.length,
    writeValue_padFree (pad' := pad') hP.sizeT d]

end Pad

section Appends
variable {τ α β : Type} {d : Nat} {pad : Nat → Byte}

theorem writeValue_prefix (c : Codec τ) (v : τ) (out : List Byte) : out <+: writeValue pad c v out :=
  List.prefix_append _ _

theorem writeArray_prefix (c : Codec τ) (l : List τ) (out : List Byte) : out <+: writeArray pad c l out := by
  induction l generalizing out with
  | nil => exact List.prefix_refl _
  | cons x l ih => exact (writeValue_prefix c x out).trans (ih (writeValue pad c x out))

theorem writeNode_prefix (P : Platform α) (branch : Codec β) (t : Tree β) (out : List Byte) :
    out <+: writeNode pad P branch t out := by
  induction t generalizing out with
  | leaf b e => exact (writeValue_prefix _ _ _).trans (writeValue_prefix _ _ _)
  | branch data l r ih1 ih2 =>
    exact (((writeValue_prefix _ _ _).trans (writeValue_prefix _ _ _)).trans (ih1 _)).trans (ih2 _)

theorem writeData_prefix (P : Platform α) (branch : Codec β) (t : TreeData α d β) (out : List Byte) :
    out <+: writeData pad P branch t out :=
  ((((writeValue_prefix _ _ _).trans (writeArray_prefix _ _ _)).trans (writeArray_prefix _ _ _)).trans
    (writeArray_prefix _ _ _)).trans (writeNode_prefix _ _ _ _)

end Appends

section Claims
variable {α β : Type} {d : Nat}

/-- C141, dimension known at compile time: a file that loads is the file `save` writes for the loaded tree,
with certain padding bytes, followed by what `load` leaves in the stream.  The file has to hold the dimension
of the tree. -/
theorem c141_static {P : Platform α} {branch : Codec β} (hP : Platform.Canonical P)
    (hb : Codec.Canonical branch) {fuel : Nat} {file s' rest : List Byte} {t : TreeData α d β}
    (hd : readValue P.sizeT file = .ok d s') (h : loadStatic P branch d fuel file = .ok t rest) :
    ∃ pad, saveData pad P branch t [] ++ rest = file :=
  ⟨bytesOf file, rewrites_static hP hb rfl hd h⟩

/-- C141, dimension known at run time: this needs no condition on the dimension. -/
theorem c141_dynamic {P : Platform α} {B : Nat → Type} {branch : ∀ d, Codec (B d)}
    (hP : Platform.Canonical P) (hb : ∀ d, Codec.Canonical (branch d)) {fuel : Nat} {file rest : List Byte}
    {t : Σ d, TreeData α d (B d)} (h : loadDynamic P branch fuel file = .ok t rest) :
    ∃ pad, saveData pad P (branch t.1) t.2 [] ++ rest = file :=
  ⟨bytesOf file, rewrites_dynamic hP hb rfl h⟩

/-- C141: with a compile time dimension a file of another dimension loads too, but `save` does not write it
again, whatever the padding. -/
theorem c141_other_dimension {P : Platform α} {branch : Codec β} (hg : P.sizeT.Good d) {k : Nat} (hk : k ≠ d)
    {file s' : List Byte} {t : TreeData α d β} (hd : readValue P.sizeT file = .ok k s')
    (pad : Nat → Byte) (rest : List Byte) : saveData pad P branch t [] ++ rest ≠ file := by
  intro he
  obtain ⟨body, hbody⟩ := writeData_prefix (pad := pad) P branch t (writeValue pad P.sizeT d [])
  rw [saveData, ← hbody, writeValue, List.nil_append, List.append_assoc] at he
  rw [← he, readValue_enc hg] at hd
  simp only [Load.ok.injEq] at hd
  exact hk hd.1.symm

/-- C141: where the node types have no padding, the file of a tree is determined by the tree: two files from
which the same tree is loaded, with the same bytes left, are equal. -/
theorem c141_unique {P : Platform α} {B : Nat → Type} {branch : ∀ d, Codec (B d)}
    (hP : Platform.Canonical P) (hb : ∀ d, Codec.Canonical (branch d)) (hF : Platform.PadFree P)
    (hL : Codec.PadFree P.leaf) (hB : ∀ d, Codec.PadFree (branch d)) {fuel fuel' : Nat}
    {file file' rest : List Byte} {t : Σ d, TreeData α d (B d)} (h : loadDynamic P branch fuel file = .ok t rest)
    (h' : loadDynamic P branch fuel' file' = .ok t rest) : file = file' := by
  obtain ⟨pad, e⟩ := c141_dynamic hP hb h
  obtain ⟨pad', e'⟩ := c141_dynamic hP hb h'
  rw [← e, ← e', saveData_padFree hF hL (hB _)]

/-- C141: trees of `float` (a scalar type of four bytes) have no padding on a 64-bit platform. -/
theorem c141_float {c : Codec α} (h4 : c.size = 4) (ha : c.align = 4) (hc : Codec.PadFree c) (d : Nat) :
    Codec.PadFree (Platform.le64 c).leaf ∧ Codec.PadFree ((Platform.le64 c).branch1 d) ∧
      Codec.PadFree ((Platform.le64 c).branch2 d) := by
  have hi : Codec.PadFree ((Platform.le64 c).splitDim d) := padFree_view fun _ _ _ => rfl
  have e0 : (Platform.le64 c).scalar = c := rfl
  have z0 : ((Platform.le64 c).splitDim d).size = 4 := rfl
  have a0 : ((Platform.le64 c).splitDim d).align = 4 := rfl
  have g : ∀ k, gapTo (4 * k) 4 = 0 := fun k => by simp [gapTo]
  have s1 : Codec.PadFree (((Platform.le64 c).splitDim d).seq c) :=
    padFree_seq hi hc (by rw [ha]; exact g 1)
  have z1 : (((Platform.le64 c).splitDim d).seq c).size = 8 := by
    simp [Codec.seq, ha, h4, z0, gapTo]
  have s2 : Codec.PadFree ((((Platform.le64 c).splitDim d).seq c).seq c) :=
    padFree_seq s1 hc (by rw [ha, z1]; exact g 2)
  have z2 : ((((Platform.le64 c).splitDim d).seq c).seq c).size = 12 := by
    rw [Codec.seq]; simp [z1, ha, h4, gapTo]
  have s3 : Codec.PadFree (((((Platform.le64 c).splitDim d).seq c).seq c).seq c) :=
    padFree_seq s2 hc (by rw [ha, z2]; exact g 3)
  have z3 : (((((Platform.le64 c).splitDim d).seq c).seq c).seq c).size = 16 := by
    rw [Codec.seq]; simp [z2, ha, h4, gapTo]
  have s4 : Codec.PadFree ((((((Platform.le64 c).splitDim d).seq c).seq c).seq c).seq c) :=
    padFree_seq s3 hc (by rw [ha, z3]; exact g 4)
  have z4 : ((((((Platform.le64 c).splitDim d).seq c).seq c).seq c).seq c).size = 20 := by
    rw [Codec.seq]; simp [z3, ha, h4, gapTo]
  refine ⟨?_, ?_, ?_⟩
  · exact padFree_close (padFree_seq (fun _ _ _ => rfl) (fun _ _ _ => rfl) (g 1))
      (by simp [Codec.seq, Platform.le64, Codec.signed, gapTo])
  · refine padFree_view (padFree_close s2 ?_)
    rw [e0, z2]
    simp only [Codec.seq, a0, ha]
    exact g 3
  · refine padFree_view (padFree_close s4 ?_)
    rw [e0, z4]
    simp only [Codec.seq, a0, ha]
    exact g 5

theorem metricString_of {str : List Byte} {m : PyMetric} (h : metricFromString str = some m) :
    str = metricString m := by
  unfold metricFromString at h
  split at h
  · rename_i e; simp only [Option.some.injEq] at h; rw [← h, e]
  · split at h
    · rename_i e; simp only [Option.some.injEq] at h; rw [← h, e]
    · split at h
      · rename_i e; simp only [Option.some.injEq] at h; rw [← h, e]
      · simp at h

theorem writeChars (pad : Nat → Byte) (str out : List Byte) : writeArray pad .char str out = out ++ str := by
  induction str generalizing out with
  | nil => simp [writeArray]
  | cons b l ih =>
    show writeArray pad .char l (writeValue pad .char b out) = _
    rw [ih]
    simp [writeValue, Codec.char]

/-- The header that was accepted is the header that is written, unless nothing follows it. -/
theorem rewrites_header {junk : Fin 3 → Nat → Byte} {file rest : List Byte} {m : PyMetric}
    (h : readHeader junk file = .ok m rest) (hr : rest ≠ []) (pad : Nat → Byte) :
    writeHeader pad (metricString m) [] ++ rest = file := by
  unfold readHeader at h
  split at h
  · simp at h
  rename_i h1
  simp only at h
  split at h
  · simp at h
  rename_i h2
  cases hm : metricFromString (fill (fun _ => 0) (leValue (fill (junk 2) 8 ((file.drop 4).drop 4)))
      (((file.drop 4).drop 4).drop 8)) with
  | none => simp only [hm] at h; cases h
  | some m' =>
    simp only [hm, Load.ok.injEq] at h
    obtain ⟨rfl, rfl⟩ := h
    have hl : leValue (fill (junk 2) 8 ((file.drop 4).drop 4)) < (((file.drop 4).drop 4).drop 8).length := by
      by_contra hc
      exact hr (List.drop_of_length_le (by omega))
    have hl' := hl
    simp only [List.length_drop] at hl'
    have e1 : file.take 4 = signature := by
      rw [← fill_of_le (junk 0) (by omega)]; exact not_not.1 h1
    have e2 : leValue ((file.drop 4).take 4) = version := by
      rw [← fill_of_le (junk 1) (by simp; omega)]; exact not_not.1 h2
    have e3 := metricString_of hm
    rw [fill_of_le _ (by omega)] at e3
    generalize hs : leValue (fill (junk 2) 8 ((file.drop 4).drop 4)) = size at *
    rw [fill_of_le _ (by simp; omega)] at hs
    have e2' : leBytes 4 version = (file.drop 4).take 4 := by
      rw [← e2]
      have := leBytes_leValue ((file.drop 4).take 4)
      rwa [show ((file.drop 4).take 4).length = 4 by simp; omega] at this
    have e4 : (metricString m').length = size := by rw [← e3]; simp; omega
    have e4' : leBytes 8 size = ((file.drop 4).drop 4).take 8 := by
      rw [← hs]
      have := leBytes_leValue (((file.drop 4).drop 4).take 8)
      rwa [show (((file.drop 4).drop 4).take 8).length = 8 by simp; omega] at this
    rw [writeHeader, writeVector, writeChars, e4]
    simp only [writeValue, Codec.unsigned, Codec.raw, List.nil_append]
    rw [e2', e4', ← e1, ← e3]
    simp only [List.append_assoc]
    rw [List.take_append_drop, List.take_append_drop, List.take_append_drop, List.take_append_drop]

/-- C141 from Python: a file that `load_kd_tree` accepts is the file that `save_kd_tree` writes for what was
loaded.  With the two compile time dimensions, the file has to hold the dimension of the tree. -/
theorem c141_python {P : Platform α} (hP : Platform.Canonical P) (hz : 0 < P.sizeT.size)
    {junk : Fin 3 → Nat → Byte} {stride fuel : Nat} {file rest : List Byte} {m : PyMetric}
    {t : Σ d, TreeData α d (Branch1 α d)} (h : pyLoad junk P stride fuel file = .ok (m, t) rest)
    (hd : stride = 2 ∨ stride = 3 → ∀ s, readHeader junk file = .ok m s →
      ∃ s', readValue P.sizeT s = .ok stride s') :
    ∃ pad, pySave pad P m t.2 [] ++ rest = file := by
  obtain ⟨m', s, h1, h⟩ := Load.bind_ok h
  have hs : ∀ {x s'}, readValue P.sizeT s = .ok x s' → s ≠ [] := by
    rintro x s' hv rfl
    simp [readValue, hz] at hv
  refine ⟨bytesOf file, ?_⟩
  split at h
  · rename_i h2
    obtain ⟨t', s2, h3, h⟩ := Load.bind_ok h
    simp only [Load.ok.injEq, Prod.mk.injEq] at h
    obtain ⟨⟨rfl, rfl⟩, rfl⟩ := h
    obtain ⟨s', hv⟩ := hd (.inl h2) s h1
    rw [h2] at hv
    exact rewrites_static hP (hP.branch1 2) (rewrites_header h1 (hs hv) _) hv h3
  · split at h
    · rename_i h2
      obtain ⟨t', s2, h3, h⟩ := Load.bind_ok h
      simp only [Load.ok.injEq, Prod.mk.injEq] at h
      obtain ⟨⟨rfl, rfl⟩, rfl⟩ := h
      obtain ⟨s', hv⟩ := hd (.inr h2) s h1
      rw [h2] at hv
      exact rewrites_static hP (hP.branch1 3) (rewrites_header h1 (hs hv) _) hv h3
    · obtain ⟨t', s2, h3, h⟩ := Load.bind_ok h
      simp only [Load.ok.injEq, Prod.mk.injEq] at h
      obtain ⟨⟨rfl, rfl⟩, rfl⟩ := h
      obtain ⟨k, s1, hv, _⟩ := Load.bind_ok h3
      exact rewrites_dynamic hP hP.branch1 (rewrites_header h1 (hs hv) _) h3

end Claims

section Examples

theorem canonical_int8 : Codec.Canonical int8 :=
  canonical_view (canonical_unsigned 1) fun x v hv => by
    simp only [Option.some.injEq] at hv
    rw [← hv]
    simp

/-- The tree of two leaves of four points on the line, in the format of Python. -/
def fourOnALine : TreeData Int 1 (Branch1 Int 1) :=
  ⟨[0, 2, 1, 3], ⟨![-7], ![100]⟩, .branch ⟨0, 5, 90⟩ (.leaf 0 2) (.leaf 2 4)⟩

/-- Its file on a 64-bit platform, with 0xcc in the two padding bytes of the branch, and two further bytes. -/
def fourFile : List Byte :=
  pySave (fun _ => 0xcc) (Platform.le64 int8) .l2Squared fourOnALine [] ++ [1, 2]

/-- A file of 88 bytes that loads, on a platform that satisfies the hypotheses; with other padding it is
another file. -/
example : Platform.Canonical (Platform.le64 int8) ∧ 0 < (Platform.le64 int8).sizeT.size ∧
    pyLoad (fun _ _ => 0) (Platform.le64 int8) 1 10 fourFile = .ok (.l2Squared, ⟨1, fourOnALine⟩) [1, 2] ∧
    fourFile.length = 88 ∧
    pySave (fun _ => 0) (Platform.le64 int8) .l2Squared fourOnALine [] ++ [1, 2] ≠ fourFile := by
  refine ⟨canonical_le64 canonical_int8, by decide, ?_, by decide +kernel, by decide +kernel⟩
  rfl

/-- Scalars of four bytes, given by their bytes: the hypotheses of `c141_unique` and `c141_float`. -/
example : let c : Codec (List Byte) := ⟨4, 4, fun _ l => l, some⟩
    Platform.Canonical (Platform.le64 c) ∧ Platform.PadFree (Platform.le64 c) ∧
      Codec.PadFree (Platform.le64 c).leaf ∧ ∀ d, Codec.PadFree ((Platform.le64 c).branch1 d) :=
  have hc : Codec.PadFree (⟨4, 4, fun _ l => l, some⟩ : Codec (List Byte)) := fun _ _ _ => rfl
  ⟨canonical_le64 fun bs v _ hv _ _ => by simpa using hv.symm, padFree_le64 hc, (c141_float rfl rfl hc 1).1,
    fun d => (c141_float rfl rfl hc d).2.1⟩

/-- A file of a tree in two dimensions loads as a tree in one dimension (with a box that is wrong), and is not
reproduced: the hypotheses of `c141_other_dimension`. -/
example : ∃ t rest s', loadStatic (Platform.le64 int8) ((Platform.le64 int8).branch1 1) 1 10
      (leBytes 8 2 ++ leBytes 8 1 ++ leBytes 4 0 ++ [130, 140] ++ [1] ++ leBytes 4 0 ++ leBytes 4 1) =
        .ok t rest ∧
    readValue (Platform.le64 int8).sizeT
      (leBytes 8 2 ++ leBytes 8 1 ++ leBytes 4 0 ++ [130, 140] ++ [1] ++ leBytes 4 0 ++ leBytes 4 1) =
        .ok 2 s' ∧ (Platform.le64 int8).sizeT.Good 1 :=
  ⟨⟨[0], ⟨![2], ![12]⟩, .leaf 0 1⟩, [], _, by rfl, by rfl, good_unsigned (by norm_num)⟩

end Examples

end Pico.Props
