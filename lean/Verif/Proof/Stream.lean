import Verif.Model.Stream
import Verif.Proof.Shape

/-! # Round trips of the stream model -/

set_option linter.unusedSectionVars false

namespace Pico

/-- The value `v` is faithfully represented, whatever the padding bytes are. -/
def Codec.Good {τ : Type} (c : Codec τ) (v : τ) : Prop :=
  ∀ pad, (c.enc pad v).length = c.size ∧ c.dec (c.enc pad v) = some v

section Codecs
variable {σ τ : Type}

theorem leBytes_length (n v : Nat) : (leBytes n v).length = n := by
  induction n generalizing v with
  | zero => rfl
  | succ n ih => simp [leBytes, ih]

theorem leValue_leBytes (n v : Nat) (h : v < 256 ^ n) : leValue (leBytes n v) = v := by
  induction n generalizing v with
  | zero => simp at h; simp [leBytes, leValue, h]
  | succ n ih =>
    have h2 : v / 256 < 256 ^ n := by
      rw [Nat.div_lt_iff_lt_mul (by omega)]
      rwa [Nat.pow_succ] at h
    have h3 : v % 256 < 256 := Nat.mod_lt _ (by omega)
    simp only [leBytes, leValue, ih _ h2]
    have : (UInt8.ofNat (v % 256)).toNat = v % 256 := by
      simp
    rw [this]
    omega

theorem leBytes_leValue (l : List Byte) : leBytes l.length (leValue l) = l := by
  induction l with
  | nil => rfl
  | cons b l ih =>
    have hb : b.toNat < 256 := b.toNat_lt
    simp only [List.length_cons, leBytes, leValue]
    have h1 : (b.toNat + 256 * leValue l) % 256 = b.toNat := by omega
    have h2 : (b.toNat + 256 * leValue l) / 256 = leValue l := by omega
    rw [h1, h2, ih]
    simp

theorem leValue_lt (l : List Byte) : leValue l < 256 ^ l.length := by
  induction l with
  | nil => simp [leValue]
  | cons b l ih =>
    have hb : b.toNat < 256 := b.toNat_lt
    simp only [List.length_cons, leValue, Nat.pow_succ]
    omega

theorem padBytes_length (pad : Nat → Byte) (a n : Nat) : (padBytes pad a n).length = n := by
  simp [padBytes]

theorem good_unsigned {w v : Nat} (h : v < 256 ^ w) : (Codec.unsigned w).Good v := fun _ =>
  ⟨leBytes_length w v, by simp [Codec.unsigned, leValue_leBytes w v h]⟩

theorem good_signed {w v : Nat} (hw : 0 < w) (h : v < 2 ^ (8 * w - 1)) : (Codec.signed w).Good v := by
  have h2 : v < 256 ^ w := by
    have h3 : (256 : Nat) ^ w = 2 ^ (8 * w) := by
      rw [show (256 : Nat) = 2 ^ 8 from rfl, ← Nat.pow_mul]
    rw [h3]
    exact h.trans_le (Nat.pow_le_pow_right (by omega) (by omega))
  exact fun _ => ⟨leBytes_length w v, by simp [Codec.signed, leValue_leBytes w v h2, h]⟩

theorem good_bool (b : Bool) : Codec.bool.Good b := fun _ => by
  cases b <;> simp [Codec.bool]

theorem good_seq {a : Codec σ} {b : Codec τ} {x : σ} {y : τ} (ha : a.Good x) (hb : b.Good y) :
    (a.seq b).Good (x, y) := by
  intro pad
  obtain ⟨h1, h2⟩ := ha pad
  obtain ⟨h3, h4⟩ := hb (fun i => pad (a.size + gapTo a.size b.align + i))
  constructor
  · simp only [Codec.seq, List.length_append, padBytes_length, h1, h3]
  · have e1 : ((a.seq b).enc pad (x, y)).take a.size = a.enc pad x := by
      simp only [Codec.seq, List.append_assoc]
      rw [← h1]
      exact List.take_left' rfl
    have e2 : ((a.seq b).enc pad (x, y)).drop (a.size + gapTo a.size b.align) =
        b.enc (fun i => pad (a.size + gapTo a.size b.align + i)) y := by
      simp only [Codec.seq]
      exact List.drop_left' (by simp [padBytes_length, h1])
    change (match a.dec (((a.seq b).enc pad (x, y)).take a.size),
      b.dec (((a.seq b).enc pad (x, y)).drop (a.size + gapTo a.size b.align)) with
      | some x, some y => some (x, y)
      | _, _ => none) = some (x, y)
    rw [e1, e2, h2, h4]

theorem good_close {a : Codec σ} {x : σ} (ha : a.Good x) : a.close.Good x := by
  intro pad
  obtain ⟨h1, h2⟩ := ha pad
  constructor
  · simp [Codec.close, padBytes_length, h1]
  · simp only [Codec.close]
    rw [← h1, List.take_left' rfl]
    exact h2

theorem good_view {a : Codec σ} {fwd : τ → σ} {bwd : σ → Option τ} {v : τ} (ha : a.Good (fwd v))
    (hb : bwd (fwd v) = some v) : (a.view fwd bwd).Good v := by
  intro pad
  obtain ⟨h1, h2⟩ := ha pad
  exact ⟨h1, by simp [Codec.view, h2, hb]⟩

end Codecs

section Platforms
variable {α : Type} {d : Nat}

theorem good_leaf {P : Platform α} {b e : Nat} (hb : P.index.Good b) (he : P.index.Good e) :
    P.leaf.Good (b, e) :=
  good_close (good_seq hb he)

theorem good_splitDim {P : Platform α} {i : Fin d} (h : P.int.Good i.val) : (P.splitDim d).Good i :=
  good_view h (by simp)

theorem good_branch1 {P : Platform α} {b : Branch1 α d} (h : P.int.Good b.splitDim.val)
    (h1 : P.scalar.Good b.leftMax) (h2 : P.scalar.Good b.rightMin) : (P.branch1 d).Good b :=
  good_view (good_close (good_seq (good_seq (good_splitDim h) h1) h2)) rfl

theorem good_branch2 {P : Platform α} {b : Branch2 α d} (h : P.int.Good b.splitDim.val)
    (h1 : P.scalar.Good b.leftMin) (h2 : P.scalar.Good b.leftMax) (h3 : P.scalar.Good b.rightMin)
    (h4 : P.scalar.Good b.rightMax) : (P.branch2 d).Good b :=
  good_view (good_close (good_seq (good_seq (good_seq (good_seq (good_splitDim h) h1) h2) h3) h4)) rfl

end Platforms

section Trees
variable {α β : Type} {d : Nat}

/-- Every value stored in the nodes is representable. -/
def Tree.Fits (P : Platform α) (branch : Codec β) : Tree β → Prop
  | .leaf b e => P.index.Good b ∧ P.index.Good e
  | .branch data l r => branch.Good data ∧ l.Fits P branch ∧ r.Fits P branch

/-- Every value of the tree data is representable. -/
structure TreeData.Fits (P : Platform α) (branch : Codec β) (t : TreeData α d β) : Prop where
  dim : P.sizeT.Good d
  length : P.sizeT.Good t.indices.length
  indices : ∀ i ∈ t.indices, P.index.Good i
  min : ∀ j, P.scalar.Good (t.rootBox.min j)
  max : ∀ j, P.scalar.Good (t.rootBox.max j)
  root : t.root.Fits P branch
  bool : ∀ b, P.bool.Good b

theorem readValue_enc {τ : Type} {c : Codec τ} {v : τ} (h : c.Good v) (pad : Nat → Byte)
    (rest : List Byte) : readValue c (c.enc pad v ++ rest) = .ok v rest := by
  obtain ⟨h1, h2⟩ := h pad
  unfold readValue
  rw [if_neg (by simp [h1]), List.take_left' h1, h2, List.drop_left' h1]

/-- `f` (a writer) appends bytes from which `g` (a reader) recovers `v`. -/
def Recovers {τ : Type} (f : List Byte → List Byte) (g : List Byte → Load τ) (v : τ) : Prop :=
  ∀ out, ∃ body, f out = out ++ body ∧ ∀ rest, g (body ++ rest) = .ok v rest

theorem recovers_value {τ : Type} {c : Codec τ} {v : τ} (h : c.Good v) (pad : Nat → Byte) :
    Recovers (writeValue pad c v) (readValue c) v := fun out =>
  ⟨c.enc (fun i => pad (out.length + i)) v, rfl, fun rest => readValue_enc h _ rest⟩

theorem recovers_seq {σ τ : Type} {f1 f2 : List Byte → List Byte} {g1 : List Byte → Load σ}
    {g2 : σ → List Byte → Load τ} {v : σ} {w : τ} (h1 : Recovers f1 g1 v)
    (h2 : Recovers f2 (g2 v) w) :
    Recovers (fun out => f2 (f1 out)) (fun s => (g1 s).bind g2) w := by
  intro out
  obtain ⟨b1, e1, r1⟩ := h1 out
  obtain ⟨b2, e2, r2⟩ := h2 (out ++ b1)
  refine ⟨b1 ++ b2, by simp only [e1, e2, List.append_assoc], fun rest => ?_⟩
  simp only [List.append_assoc, r1, Load.bind, r2]

theorem recovers_map {σ τ : Type} {f : List Byte → List Byte} {g : List Byte → Load σ} {v : σ}
    (h : Recovers f g v) (k : σ → τ) :
    Recovers f (fun s => (g s).bind fun x s => .ok (k x) s) (k v) := by
  intro out
  obtain ⟨b, e, r⟩ := h out
  exact ⟨b, e, fun rest => by simp [r, Load.bind]⟩

theorem recovers_array {τ : Type} {c : Codec τ} {l : List τ} (h : ∀ x ∈ l, c.Good x)
    (pad : Nat → Byte) : Recovers (writeArray pad c l) (readArray c l.length) l := by
  induction l with
  | nil => exact fun out => ⟨[], by simp [writeArray], fun rest => rfl⟩
  | cons x l ih =>
    have h1 := recovers_value (h x (by simp)) pad
    have h2 := ih (fun y hy => h y (by simp [hy]))
    have h3 := recovers_seq
      (g2 := fun y s => (readArray c l.length s).bind fun l s => .ok (y :: l) s)
      h1 (recovers_map h2 (x :: ·))
    exact h3

theorem recovers_pt {τ : Type} {c : Codec τ} {d : Nat} {p : Pt τ d} (h : ∀ j, c.Good (p j))
    (pad : Nat → Byte) : Recovers (writeArray pad c (List.ofFn p)) (readPt c d) p := by
  induction d with
  | zero =>
    intro out
    refine ⟨[], by simp [writeArray], fun rest => ?_⟩
    have : p = Fin.elim0 := funext fun i => i.elim0
    rw [this]
    rfl
  | succ d ih =>
    have h1 := recovers_value (h 0) pad
    have h2 := ih (p := fun j => p j.succ) (fun j => h j.succ)
    rw [List.ofFn_succ]
    have h3 := recovers_seq
      (g2 := fun y s => (readPt c d s).bind fun q s => .ok (Fin.cons y q : Pt τ (d + 1)) s)
      h1 (recovers_map h2 (fun q => (Fin.cons (p 0) q : Pt τ (d + 1))))
    have h4 : (Fin.cons (p 0) (fun j => p j.succ) : Pt τ (d + 1)) = p := Fin.cons_self_tail p
    rw [h4] at h3
    exact h3

theorem recovers_vector {τ : Type} {sizeT : Codec Nat} {c : Codec τ} {l : List τ}
    (hn : sizeT.Good l.length) (h : ∀ x ∈ l, c.Good x) (pad : Nat → Byte) :
    Recovers (writeVector pad sizeT c l) (readVector sizeT c) l := by
  have h1 := recovers_seq (g2 := fun n s => readArray c n s) (recovers_value hn pad)
    (recovers_array h pad)
  exact h1

theorem recovers_node {P : Platform α} {branch : Codec β} {t : Tree β} (h : t.Fits P branch)
    (hb : ∀ b, P.bool.Good b) (pad : Nat → Byte) (fuel : Nat) (hf : Spec.height t < fuel) :
    Recovers (writeNode pad P branch t) (readNode P branch fuel) t := by
  induction t generalizing fuel with
  | leaf b e =>
    obtain ⟨fuel, rfl⟩ : ∃ k, fuel = k + 1 := ⟨fuel - 1, by omega⟩
    have h1 := recovers_seq
      (g2 := fun isLeaf s =>
        if isLeaf then (readValue P.leaf s).bind fun x s => .ok (.leaf x.1 x.2) s
        else (readValue branch s).bind fun b s =>
          (readNode P branch fuel s).bind fun l s =>
            (readNode P branch fuel s).bind fun r s => .ok (.branch b l r) s)
      (recovers_value (hb true) pad)
      (f2 := writeValue pad P.leaf (b, e)) (w := (.leaf b e : Tree β))
      (by
        simp only [if_true]
        have h2 := recovers_map (recovers_value (good_leaf h.1 h.2) pad)
          (fun x => (Tree.leaf x.1 x.2 : Tree β))
        exact h2)
    exact h1
  | branch data l r ih1 ih2 =>
    obtain ⟨fuel, rfl⟩ : ∃ k, fuel = k + 1 := ⟨fuel - 1, by omega⟩
    have hh : Spec.height (.branch data l r : Tree β) = max (Spec.height l) (Spec.height r) + 1 := by
      rfl
    have hl : Spec.height l < fuel := by omega
    have hr : Spec.height r < fuel := by omega
    have h1 := recovers_seq
      (g2 := fun isLeaf s =>
        if isLeaf then (readValue P.leaf s).bind fun x s => .ok (.leaf x.1 x.2) s
        else (readValue branch s).bind fun b s =>
          (readNode P branch fuel s).bind fun l s =>
            (readNode P branch fuel s).bind fun r s => .ok (.branch b l r) s)
      (recovers_value (hb false) pad)
      (f2 := fun out => writeNode pad P branch r
        (writeNode pad P branch l (writeValue pad branch data out)))
      (w := (.branch data l r : Tree β))
      (by
        simp only [Bool.false_eq_true, if_false]
        have h2 := recovers_seq
          (g2 := fun b s => (readNode P branch fuel s).bind fun l s =>
            (readNode P branch fuel s).bind fun r s => .ok (Tree.branch b l r) s)
          (recovers_value h.1 pad)
          (recovers_seq
            (g2 := fun l s => (readNode P branch fuel s).bind fun r s => .ok (Tree.branch data l r) s)
            (ih1 h.2.1 fuel hl)
            (recovers_map (ih2 h.2.2 fuel hr) (fun r => (Tree.branch data l r : Tree β))))
        exact h2)
    exact h1

theorem recovers_data {P : Platform α} {branch : Codec β} {t : TreeData α d β}
    (h : t.Fits P branch) (pad : Nat → Byte) (fuel : Nat) (hf : Spec.height t.root < fuel) :
    Recovers (writeData pad P branch t) (readData P branch d fuel) t := by
  have h1 := recovers_vector h.length h.indices pad
  have h2 := recovers_pt h.min pad
  have h3 := recovers_pt h.max pad
  have h4 := recovers_node h.root h.bool pad fuel hf
  have h5 := recovers_seq
    (g2 := fun indices s => (readPt P.scalar d s).bind fun mn s =>
      (readPt P.scalar d s).bind fun mx s =>
        (readNode P branch fuel s).bind fun root s =>
          .ok (⟨indices, ⟨mn, mx⟩, root⟩ : TreeData α d β) s) h1
    (recovers_seq
      (g2 := fun mn s => (readPt P.scalar d s).bind fun mx s =>
        (readNode P branch fuel s).bind fun root s =>
          .ok (⟨t.indices, ⟨mn, mx⟩, root⟩ : TreeData α d β) s) h2
      (recovers_seq
        (g2 := fun mx s => (readNode P branch fuel s).bind fun root s =>
          .ok (⟨t.indices, ⟨t.rootBox.min, mx⟩, root⟩ : TreeData α d β) s) h3
        (recovers_map h4 (fun root =>
          (⟨t.indices, ⟨t.rootBox.min, t.rootBox.max⟩, root⟩ : TreeData α d β)))))
  exact h5

theorem recovers_static {P : Platform α} {branch : Codec β} {t : TreeData α d β}
    (h : t.Fits P branch) (pad : Nat → Byte) (fuel : Nat) (hf : Spec.height t.root < fuel) :
    Recovers (saveData pad P branch t) (loadStatic P branch d fuel) t := by
  have h1 := recovers_seq (g2 := fun _ s => readData P branch d fuel s) (recovers_value h.dim pad)
    (recovers_data h pad fuel hf)
  exact h1

theorem recovers_dynamic {P : Platform α} {B : Nat → Type} {branch : ∀ d, Codec (B d)}
    {t : TreeData α d (B d)} (h : t.Fits P (branch d)) (pad : Nat → Byte) (fuel : Nat)
    (hf : Spec.height t.root < fuel) :
    Recovers (saveData pad P (branch d) t) (loadDynamic P branch fuel) ⟨d, t⟩ := by
  have h1 := recovers_seq
    (g2 := fun d s => (readData P (branch d) d fuel s).bind fun t s =>
      .ok (⟨d, t⟩ : Σ d, TreeData α d (B d)) s)
    (recovers_value h.dim pad)
    (recovers_map (recovers_data h pad fuel hf) (fun t => (⟨d, t⟩ : Σ d, TreeData α d (B d))))
  exact h1

end Trees

section Stable

/-- Bytes that follow in the stream. -/
def Load.extend {τ : Type} (y : List Byte) : Load τ → Load τ
  | .ok v rest => .ok v (rest ++ y)
  | x => x

/-- Unless the reader runs out of data, bytes that follow do not change what it does. -/
def Stable {τ : Type} (f : List Byte → Load τ) : Prop :=
  ∀ s y, f s ≠ .eof → f (s ++ y) = (f s).extend y

variable {σ τ α β : Type} {d : Nat}

theorem stable_ok (v : τ) : Stable (fun s => Load.ok v s) := fun _ _ _ => rfl

theorem stable_bind {f : List Byte → Load σ} {g : σ → List Byte → Load τ} (hf : Stable f)
    (hg : ∀ v, Stable (g v)) : Stable (fun s => (f s).bind g) := by
  intro s y h
  simp only at h ⊢
  have h1 : f s ≠ .eof := fun hc => h (by rw [hc]; rfl)
  rw [hf s y h1]
  cases hs : f s with
  | ok v rest =>
    rw [hs] at h
    exact hg v rest y h
  | eof => exact absurd hs h1
  | invalid => rfl
  | throws => rfl
  | oof => rfl

theorem stable_value (c : Codec τ) : Stable (readValue c) := by
  intro s y h
  unfold readValue at h ⊢
  by_cases hs : s.length < c.size
  · simp [hs] at h
  · have h1 : ¬ (s ++ y).length < c.size := by simp; omega
    rw [if_neg h1, if_neg hs]
    have h2 : (s ++ y).take c.size = s.take c.size := List.take_append_of_le_length (by omega)
    have h3 : (s ++ y).drop c.size = s.drop c.size ++ y := List.drop_append_of_le_length (by omega)
    rw [h2, h3]
    cases c.dec (s.take c.size) <;> rfl

theorem stable_array (c : Codec τ) (n : Nat) : Stable (readArray c n) := by
  induction n with
  | zero => exact stable_ok []
  | succ n ih =>
    exact stable_bind (stable_value c) fun x => stable_bind ih fun l => stable_ok (x :: l)

theorem stable_pt (c : Codec τ) (d : Nat) : Stable (readPt c d) := by
  induction d with
  | zero => exact stable_ok _
  | succ n ih =>
    exact stable_bind (stable_value c) fun x => stable_bind ih fun l => stable_ok _

theorem stable_vector (sizeT : Codec Nat) (c : Codec τ) : Stable (readVector sizeT c) :=
  stable_bind (stable_value sizeT) fun n => stable_array c n

theorem stable_node (P : Platform α) (branch : Codec β) (fuel : Nat) :
    Stable (readNode P branch fuel) := by
  induction fuel with
  | zero => exact fun _ _ _ => rfl
  | succ fuel ih =>
    refine stable_bind (stable_value P.bool) fun isLeaf => ?_
    cases isLeaf with
    | true =>
      simp only [if_true]
      exact stable_bind (stable_value _) fun x => stable_ok _
    | false =>
      simp only [Bool.false_eq_true, if_false]
      exact stable_bind (stable_value _) fun b =>
        stable_bind ih fun l => stable_bind ih fun r => stable_ok _

theorem stable_data (P : Platform α) (branch : Codec β) (d fuel : Nat) :
    Stable (readData P branch d fuel) :=
  stable_bind (stable_vector _ _) fun _ => stable_bind (stable_pt _ _) fun _ =>
    stable_bind (stable_pt _ _) fun _ => stable_bind (stable_node _ _ _) fun _ => stable_ok _

theorem stable_static (P : Platform α) (branch : Codec β) (d fuel : Nat) :
    Stable (loadStatic P branch d fuel) :=
  stable_bind (stable_value _) fun _ => stable_data _ _ _ _

theorem stable_dynamic (P : Platform α) {B : Nat → Type} (branch : ∀ d, Codec (B d)) (fuel : Nat) :
    Stable (loadDynamic P branch fuel) :=
  stable_bind (stable_value _) fun _ => stable_bind (stable_data _ _ _ _) fun _ => stable_ok _

/-- A reader that recovers exactly the written bytes runs out of data on every proper prefix. -/
theorem eof_of_prefix {f : List Byte → Load τ} (hf : Stable f) {p q : List Byte} {v : τ}
    (h : f (p ++ q) = .ok v []) (hq : q ≠ []) : f p = .eof := by
  by_contra hc
  have h1 := hf p q hc
  rw [h] at h1
  cases hp : f p with
  | ok w rest =>
    rw [hp] at h1
    simp only [Load.extend, Load.ok.injEq] at h1
    exact hq (List.append_eq_nil_iff.1 h1.2.symm).2
  | eof => exact hc hp
  | invalid => rw [hp] at h1; simp [Load.extend] at h1
  | throws => rw [hp] at h1; simp [Load.extend] at h1
  | oof => rw [hp] at h1; simp [Load.extend] at h1

end Stable

section Terminates
variable {σ τ α β : Type} {d : Nat}

/-- Readers never put bytes back, and consume at least `k`. -/
def Consumes {τ : Type} (k : Nat) (f : List Byte → Load τ) : Prop :=
  ∀ s v rest, f s = .ok v rest → rest.length + k ≤ s.length

theorem consumes_ok (v : τ) : Consumes 0 (fun s => Load.ok v s) := by
  intro s w rest h
  simp only [Load.ok.injEq] at h
  simp [h.2]

theorem consumes_value (c : Codec τ) : Consumes c.size (readValue c) := by
  intro s v rest h
  unfold readValue at h
  split at h
  · simp at h
  · cases hd : c.dec (s.take c.size) with
    | none => simp [hd] at h
    | some w =>
      simp only [hd, Load.ok.injEq] at h
      rw [← h.2, List.length_drop]
      omega

theorem consumes_bind {k l : Nat} {f : List Byte → Load σ} {g : σ → List Byte → Load τ}
    (hf : Consumes k f) (hg : ∀ v, Consumes l (g v)) : Consumes (k + l) (fun s => (f s).bind g) := by
  intro s w rest h
  simp only at h
  cases hs : f s with
  | ok v r =>
    rw [hs] at h
    have h1 := hf s v r hs
    have h2 := hg v r w rest h
    omega
  | eof => simp [hs, Load.bind] at h
  | invalid => simp [hs, Load.bind] at h
  | throws => simp [hs, Load.bind] at h
  | oof => simp [hs, Load.bind] at h

theorem Consumes.mono {k l : Nat} {f : List Byte → Load τ} (h : Consumes k f) (hl : l ≤ k) :
    Consumes l f := fun s v rest hs => by have := h s v rest hs; omega

theorem consumes_node (P : Platform α) (branch : Codec β) (fuel : Nat) :
    Consumes P.bool.size (readNode P branch fuel) := by
  induction fuel with
  | zero => exact fun _ _ _ h => by simp [readNode] at h
  | succ fuel ih =>
    have : Consumes (P.bool.size + 0) (readNode P branch (fuel + 1)) := by
      refine consumes_bind (consumes_value P.bool) fun isLeaf => ?_
      cases isLeaf with
      | true =>
        simp only [if_true]
        exact (consumes_bind (consumes_value _) fun x => consumes_ok _).mono (Nat.zero_le _)
      | false =>
        simp only [Bool.false_eq_true, if_false]
        exact (consumes_bind (consumes_value branch) fun b =>
          consumes_bind ih fun l => consumes_bind ih fun r => consumes_ok _).mono (Nat.zero_le _)
    exact this

theorem readValue_ne_oof (c : Codec τ) (s : List Byte) : readValue c s ≠ .oof := by
  unfold readValue
  split
  · simp
  · split <;> simp

theorem bind_ne_oof {x : Load σ} {g : σ → List Byte → Load τ} (hx : x ≠ .oof)
    (hg : ∀ v rest, x = .ok v rest → g v rest ≠ .oof) : x.bind g ≠ .oof := by
  cases x with
  | ok v rest => exact hg v rest rfl
  | eof => simp [Load.bind]
  | invalid => simp [Load.bind]
  | throws => simp [Load.bind]
  | oof => exact absurd rfl hx

theorem readArray_ne_oof (c : Codec τ) (n : Nat) (s : List Byte) : readArray c n s ≠ .oof := by
  induction n generalizing s with
  | zero => simp [readArray]
  | succ n ih =>
    exact bind_ne_oof (readValue_ne_oof c s) fun v rest _ => bind_ne_oof (ih rest) fun _ _ _ => by simp

theorem readPt_ne_oof (c : Codec τ) (d : Nat) (s : List Byte) : readPt c d s ≠ .oof := by
  induction d generalizing s with
  | zero => simp [readPt]
  | succ n ih =>
    exact bind_ne_oof (readValue_ne_oof c s) fun v rest _ => bind_ne_oof (ih rest) fun _ _ _ => by simp

theorem consumes_array (c : Codec τ) (n : Nat) : Consumes 0 (readArray c n) := by
  induction n with
  | zero => exact consumes_ok _
  | succ n ih =>
    exact (consumes_bind (consumes_value c) fun x => consumes_bind ih fun l => consumes_ok _).mono
      (Nat.zero_le _)

theorem consumes_pt (c : Codec τ) (d : Nat) : Consumes 0 (readPt c d) := by
  induction d with
  | zero => exact consumes_ok _
  | succ n ih =>
    exact (consumes_bind (consumes_value c) fun x => consumes_bind ih fun l => consumes_ok _).mono
      (Nat.zero_le _)

theorem readNode_ne_oof (P : Platform α) (branch : Codec β) (hb : 0 < P.bool.size) (fuel : Nat)
    (s : List Byte) (hs : s.length < fuel) : readNode P branch fuel s ≠ .oof := by
  induction fuel generalizing s with
  | zero => omega
  | succ fuel ih =>
    refine bind_ne_oof (readValue_ne_oof _ s) fun isLeaf s1 h1 => ?_
    have hc := consumes_value P.bool s isLeaf s1 h1
    cases isLeaf with
    | true =>
      simp only [if_true]
      exact bind_ne_oof (readValue_ne_oof _ _) fun _ _ _ => by simp
    | false =>
      simp only [Bool.false_eq_true, if_false]
      refine bind_ne_oof (readValue_ne_oof _ _) fun b s2 h2 => ?_
      have hc2 := consumes_value branch s1 b s2 h2
      refine bind_ne_oof (ih s2 (by omega)) fun l s3 h3 => ?_
      have hc3 := consumes_node P branch fuel s2 l s3 h3
      exact bind_ne_oof (ih s3 (by omega)) fun _ _ _ => by simp

theorem readData_ne_oof (P : Platform α) (branch : Codec β) (hb : 0 < P.bool.size) (d fuel : Nat)
    (s : List Byte) (hs : s.length < fuel) : readData P branch d fuel s ≠ .oof := by
  refine bind_ne_oof (bind_ne_oof (readValue_ne_oof _ _) fun _ _ _ => readArray_ne_oof _ _ _)
    fun _ s1 h1 => ?_
  have c1 := (consumes_bind (consumes_value P.sizeT) fun n => consumes_array P.index n) s _ s1 h1
  refine bind_ne_oof (readPt_ne_oof _ _ _) fun _ s2 h2 => ?_
  have c2 := consumes_pt P.scalar d s1 _ s2 h2
  refine bind_ne_oof (readPt_ne_oof _ _ _) fun _ s3 h3 => ?_
  have c3 := consumes_pt P.scalar d s2 _ s3 h3
  exact bind_ne_oof (readNode_ne_oof P branch hb fuel s3 (by omega)) fun _ _ _ => by simp

theorem bind_mono {x y : Load σ} {g g' : σ → List Byte → Load τ} (hx : x ≠ .oof → y = x)
    (hg : ∀ v rest, x = .ok v rest → g v rest ≠ .oof → g' v rest = g v rest)
    (h : x.bind g ≠ .oof) : y.bind g' = x.bind g := by
  cases hxc : x with
  | ok v rest =>
    rw [hxc] at h
    rw [hx (by rw [hxc]; simp), hxc]
    exact hg v rest hxc h
  | eof => rw [hx (by rw [hxc]; simp), hxc]; rfl
  | invalid => rw [hx (by rw [hxc]; simp), hxc]; rfl
  | throws => rw [hx (by rw [hxc]; simp), hxc]; rfl
  | oof => rw [hxc] at h; exact absurd rfl h

/-- More fuel does not change a finished read. -/
theorem readNode_mono (P : Platform α) (branch : Codec β) (fuel k : Nat) (s : List Byte)
    (h : readNode P branch fuel s ≠ .oof) :
    readNode P branch (fuel + k) s = readNode P branch fuel s := by
  induction fuel generalizing s with
  | zero => simp [readNode] at h
  | succ fuel ih =>
    rw [show fuel + 1 + k = (fuel + k) + 1 by omega]
    refine bind_mono (fun _ => rfl) (fun isLeaf s1 _ h1 => ?_) h
    cases isLeaf with
    | true => rfl
    | false =>
      simp only [Bool.false_eq_true, if_false] at h1 ⊢
      refine bind_mono (fun _ => rfl) (fun b s2 _ h2 => ?_) h1
      refine bind_mono (fun h3 => ih s2 h3) (fun l s3 _ h4 => ?_) h2
      exact bind_mono (fun h5 => ih s3 h5) (fun _ _ _ _ => rfl) h4

theorem readData_mono (P : Platform α) (branch : Codec β) (d fuel k : Nat) (s : List Byte)
    (h : readData P branch d fuel s ≠ .oof) :
    readData P branch d (fuel + k) s = readData P branch d fuel s := by
  refine bind_mono (fun _ => rfl) (fun _ _ _ h1 => ?_) h
  refine bind_mono (fun _ => rfl) (fun _ _ _ h2 => ?_) h1
  refine bind_mono (fun _ => rfl) (fun _ s3 _ h3 => ?_) h2
  exact bind_mono (fun h4 => readNode_mono P branch fuel k s3 h4) (fun _ _ _ _ => rfl) h3

theorem loadStatic_ne_oof (P : Platform α) (branch : Codec β) (hb : 0 < P.bool.size) (d fuel : Nat)
    (s : List Byte) (hs : s.length < fuel) : loadStatic P branch d fuel s ≠ .oof := by
  refine bind_ne_oof (readValue_ne_oof _ _) fun _ s1 h1 => ?_
  have c1 := consumes_value P.sizeT s _ s1 h1
  exact readData_ne_oof P branch hb d fuel s1 (by omega)

theorem loadDynamic_ne_oof (P : Platform α) {B : Nat → Type} (branch : ∀ d, Codec (B d))
    (hb : 0 < P.bool.size) (fuel : Nat) (s : List Byte) (hs : s.length < fuel) :
    loadDynamic P branch fuel s ≠ .oof := by
  refine bind_ne_oof (readValue_ne_oof _ _) fun d s1 h1 => ?_
  have c1 := consumes_value P.sizeT s _ s1 h1
  exact bind_ne_oof (readData_ne_oof P (branch d) hb d fuel s1 (by omega)) fun _ _ _ => by simp

theorem loadStatic_mono (P : Platform α) (branch : Codec β) (d fuel k : Nat) (s : List Byte)
    (h : loadStatic P branch d fuel s ≠ .oof) :
    loadStatic P branch d (fuel + k) s = loadStatic P branch d fuel s :=
  bind_mono (fun _ => rfl) (fun _ s1 _ h1 => readData_mono P branch d fuel k s1 h1) h

theorem loadDynamic_mono (P : Platform α) {B : Nat → Type} (branch : ∀ d, Codec (B d)) (fuel k : Nat)
    (s : List Byte) (h : loadDynamic P branch fuel s ≠ .oof) :
    loadDynamic P branch (fuel + k) s = loadDynamic P branch fuel s :=
  bind_mono (fun _ => rfl)
    (fun d s1 _ h1 => bind_mono (fun h2 => readData_mono P (branch d) d fuel k s1 h2)
      (fun _ _ _ _ => rfl) h1) h

end Terminates

section Complete
variable {α β : Type} {d : Nat}

/-- What `save` appends, `load` reads back, for every fuel beyond the length of the stream. -/
theorem load_save_static {P : Platform α} {branch : Codec β} {t : TreeData α d β}
    (h : t.Fits P branch) (hb : 0 < P.bool.size) (pad : Nat → Byte) (out : List Byte) :
    ∃ body, saveData pad P branch t out = out ++ body ∧
      ∀ rest fuel, (body ++ rest).length < fuel →
        loadStatic P branch d fuel (body ++ rest) = .ok t rest := by
  obtain ⟨body, e, _⟩ := recovers_static h pad (Spec.height t.root + 1) (by omega) out
  refine ⟨body, e, fun rest fuel hf => ?_⟩
  obtain ⟨body', e', r'⟩ := recovers_static h pad (fuel + (Spec.height t.root + 1)) (by omega) out
  have hbody : body' = body := by
    rw [e] at e'
    exact (List.append_cancel_left e').symm
  subst hbody
  rw [← r' rest]
  exact (loadStatic_mono P branch d fuel _ _ (loadStatic_ne_oof P branch hb d fuel _ hf)).symm

theorem load_save_dynamic {P : Platform α} {B : Nat → Type} {branch : ∀ d, Codec (B d)}
    {t : TreeData α d (B d)} (h : t.Fits P (branch d)) (hb : 0 < P.bool.size) (pad : Nat → Byte)
    (out : List Byte) :
    ∃ body, saveData pad P (branch d) t out = out ++ body ∧
      ∀ rest fuel, (body ++ rest).length < fuel →
        loadDynamic P branch fuel (body ++ rest) = .ok ⟨d, t⟩ rest := by
  obtain ⟨body, e, _⟩ := recovers_dynamic h pad (Spec.height t.root + 1) (by omega) out
  refine ⟨body, e, fun rest fuel hf => ?_⟩
  obtain ⟨body', e', r'⟩ := recovers_dynamic h pad (fuel + (Spec.height t.root + 1)) (by omega) out
  have hbody : body' = body := by
    rw [e] at e'
    exact (List.append_cancel_left e').symm
  subst hbody
  rw [← r' rest]
  exact (loadDynamic_mono P branch fuel _ _ (loadDynamic_ne_oof P branch hb fuel _ hf)).symm

/-- The platform can represent sizes up to `n`, indices up to `n` and dimensions up to `d`. -/
structure Platform.Holds (P : Platform α) (n d : Nat) : Prop where
  length : P.sizeT.Good n
  dim : P.sizeT.Good d
  index : ∀ i ≤ n, P.index.Good i
  splitDim : ∀ i < d, P.int.Good i
  bool : ∀ b, P.bool.Good b
  flag : 0 < P.bool.size

theorem holds_le64 (sc : Codec α) {n d : Nat} (hn : n < 2 ^ 31) (hd : d ≤ 2 ^ 31) :
    (Platform.le64 sc).Holds n d where
  length := good_unsigned (by omega)
  dim := good_unsigned (by omega)
  index i hi := good_signed (by omega) (by omega)
  splitDim i hi := good_signed (by omega) (by omega)
  bool := good_bool
  flag := Nat.one_pos

end Complete

end Pico
