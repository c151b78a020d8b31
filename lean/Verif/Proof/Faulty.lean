import Verif.Model.Faulty
import Verif.Proof.Stream

/-! # Streams that fail: the model of `Model/Faulty.lean` against the one of `Model/Stream.lean` -/

namespace Pico

section
variable {σ τ α β : Type} {d : Nat}

theorem fill_take (old : Nat → Byte) {n : Nat} {s : List Byte} (h : n ≤ s.length) :
    fill old n s = s.take n := by
  apply List.ext_getElem
  · simp [fill, h]
  · intro i h1 h2
    have hi : i < s.length := by
      rw [List.length_take] at h2
      omega
    simp [fill, hi]

/-! ## Reading -/

/-- No value comes out. -/
def Read.Bad (x : Read τ) : Prop := ∀ v s, x ≠ .ok v s

/-- If a value comes out, the stream has failed. -/
def Read.Short (x : Read τ) : Prop := ∀ v s, x = .ok v s → s.fail = true

theorem Read.Bad.short {x : Read τ} (h : x.Bad) : x.Short := fun v s e => absurd e (h v s)

/-- A reader of failing streams does the same as a reader that stops: same values as long as there are
enough data, and a failed stream otherwise. -/
structure Refines (f : List Byte → Load τ) (g : In → Read τ) : Prop where
  ok : ∀ s a v rest, f s = .ok v rest →
    rest.length ≤ s.length ∧ g ⟨s, false, a⟩ = .ok v ⟨rest, false, a + (s.length - rest.length)⟩
  back : ∀ s a v s', g ⟨s, false, a⟩ = .ok v s' → s'.fail = false → f s = .ok v s'.rest
  sticky : ∀ s, s.fail = true → (g s).Short

theorem refines_ok (v : τ) : Refines (fun s => Load.ok v s) (fun s => Read.ok v s) where
  ok s a w rest h := by
    obtain ⟨rfl, rfl⟩ := Load.ok.inj h
    exact ⟨le_rfl, by simp⟩
  back s a w s' h _ := by
    obtain ⟨rfl, rfl⟩ := Read.ok.inj h
    rfl
  sticky s hs w s' h := by
    obtain ⟨rfl, rfl⟩ := Read.ok.inj h
    exact hs

theorem Read.bind_ok {x : Read σ} {g : σ → In → Read τ} {w : τ} {s' : In}
    (h : x.bind g = .ok w s') : ∃ v s, x = .ok v s ∧ g v s = .ok w s' := by
  cases x with
  | ok v s => exact ⟨v, s, rfl, h⟩
  | ub => cases h
  | invalid => cases h
  | throws => cases h
  | oof => cases h

theorem Load.bind_ok {x : Load σ} {g : σ → List Byte → Load τ} {w : τ} {s' : List Byte}
    (h : x.bind g = .ok w s') : ∃ v s, x = .ok v s ∧ g v s = .ok w s' := by
  cases x with
  | ok v s => exact ⟨v, s, rfl, h⟩
  | eof => cases h
  | invalid => cases h
  | throws => cases h
  | oof => cases h

theorem refines_bind {f1 : List Byte → Load σ} {f2 : σ → List Byte → Load τ} {g1 : In → Read σ}
    {g2 : σ → In → Read τ} (h1 : Refines f1 g1) (h2 : ∀ v, Refines (f2 v) (g2 v)) :
    Refines (fun s => (f1 s).bind f2) (fun s => (g1 s).bind g2) where
  ok s a w rest h := by
    obtain ⟨v, s1, e1, e2⟩ := Load.bind_ok h
    obtain ⟨l1, r1⟩ := h1.ok s a v s1 e1
    obtain ⟨l2, r2⟩ := (h2 v).ok s1 (a + (s.length - s1.length)) w rest e2
    refine ⟨by omega, ?_⟩
    simp only [r1, Read.bind, r2]
    rw [show a + (s.length - s1.length) + (s1.length - rest.length) = a + (s.length - rest.length) by
      omega]
  back s a w s' h hf := by
    obtain ⟨v, s1, e1, e2⟩ := Read.bind_ok h
    have hs : s1.fail = false := by
      by_contra hc
      have := (h2 v).sticky s1 (by simpa using hc) w s' e2
      rw [hf] at this
      cases this
    have r1 := h1.back s a v s1 e1 hs
    obtain ⟨r, b, c⟩ := s1
    simp only at hs
    subst hs
    have r2 := (h2 v).back r c w s' e2 hf
    simp only [r1, Load.bind]
    exact r2
  sticky s hs w s' h := by
    obtain ⟨v, s1, e1, e2⟩ := Read.bind_ok h
    exact (h2 v).sticky s1 (h1.sticky s hs v s1 e1) w s' e2

theorem refines_use (junk : Nat → Byte) (c : Codec τ) : Refines (readValue c) (rawUse junk c) where
  ok s a v rest h := by
    unfold readValue at h
    split at h
    · cases h
    · rename_i hl
      cases hd : c.dec (s.take c.size) with
      | none => rw [hd] at h; cases h
      | some w =>
        rw [hd] at h
        obtain ⟨rfl, rfl⟩ := Load.ok.inj h
        simp only [rawUse, In.get, Bool.false_eq_true, if_false, hl, decide_false,
          fill_take _ (not_lt.1 hl), hd, List.length_drop]
        refine ⟨by omega, ?_⟩
        rw [show s.length - (s.length - c.size) = c.size by omega]
  back s a v s' h hf := by
    simp only [rawUse, In.get, Bool.false_eq_true, if_false] at h
    by_cases hl : s.length < c.size
    · simp [hl] at h
    · simp only [hl, decide_false, Bool.false_eq_true, if_false, fill_take _ (not_lt.1 hl)] at h
      unfold readValue
      rw [if_neg hl]
      cases hd : c.dec (s.take c.size) with
      | none => rw [hd] at h; cases h
      | some w =>
        rw [hd] at h
        obtain ⟨rfl, rfl⟩ := Read.ok.inj h
        rfl
  sticky s hs v s' h := by
    simp [rawUse, In.get, hs] at h

theorem refines_keep (old : Nat → Byte) (c : Codec τ) : Refines (readValue c) (rawKeep old c) where
  ok s a v rest h := by
    unfold readValue at h
    split at h
    · cases h
    · rename_i hl
      cases hd : c.dec (s.take c.size) with
      | none => rw [hd] at h; cases h
      | some w =>
        rw [hd] at h
        obtain ⟨rfl, rfl⟩ := Load.ok.inj h
        simp only [rawKeep, In.get, Bool.false_eq_true, if_false, hl, decide_false,
          fill_take _ (not_lt.1 hl), hd, List.length_drop]
        refine ⟨by omega, ?_⟩
        rw [show s.length - (s.length - c.size) = c.size by omega]
  back s a v s' h hf := by
    simp only [rawKeep, In.get, Bool.false_eq_true, if_false] at h
    by_cases hl : s.length < c.size
    · cases hd : c.dec (fill (fun i => old (a + i)) c.size s) with
      | none => rw [hd] at h; cases h
      | some w =>
        rw [hd] at h
        obtain ⟨rfl, rfl⟩ := Read.ok.inj h
        simp [hl] at hf
    · simp only [hl, decide_false, fill_take _ (not_lt.1 hl)] at h
      unfold readValue
      rw [if_neg hl]
      cases hd : c.dec (s.take c.size) with
      | none => rw [hd] at h; cases h
      | some w =>
        rw [hd] at h
        obtain ⟨rfl, rfl⟩ := Read.ok.inj h
        rfl
  sticky s hs v s' h := by
    simp only [rawKeep, In.get, hs, if_true] at h
    split at h
    · obtain ⟨rfl, rfl⟩ := Read.ok.inj h
      rfl
    · cases h

theorem refines_array (old : Nat → Byte) (c : Codec τ) (n : Nat) :
    Refines (readArray c n) (rawArray old c n) := by
  induction n with
  | zero => exact refines_ok []
  | succ n ih =>
    exact refines_bind (refines_keep old c) fun x => refines_bind ih fun l => refines_ok (x :: l)

theorem refines_pt (old : Nat → Byte) (c : Codec τ) (d : Nat) :
    Refines (readPt c d) (rawPt old c d) := by
  induction d with
  | zero => exact refines_ok _
  | succ d ih =>
    exact refines_bind (refines_keep old c) fun x => refines_bind ih fun p => refines_ok _

theorem refines_vector (junk : Nat → Byte) (sizeT : Codec Nat) (c : Codec τ) :
    Refines (readVector sizeT c) (rawVector junk sizeT c) :=
  refines_bind (refines_use junk sizeT) fun n => refines_array _ c n

theorem refines_node (junk : Nat → Byte) (P : Platform α) (branch : Codec β) (fuel : Nat) :
    Refines (readNode P branch fuel) (rawNode junk P branch fuel) := by
  induction fuel with
  | zero =>
    exact ⟨fun s a v rest h => by simp [readNode] at h, fun s a v s' h => by simp [rawNode] at h,
      fun s _ v s' h => by simp [rawNode] at h⟩
  | succ fuel ih =>
    refine refines_bind (refines_use junk P.bool) fun isLeaf => ?_
    cases isLeaf with
    | true =>
      simp only [if_true]
      exact refines_bind (refines_keep junk P.leaf) fun x => refines_ok _
    | false =>
      simp only [Bool.false_eq_true, if_false]
      exact refines_bind (refines_keep junk branch) fun b => refines_bind ih fun l =>
        refines_bind ih fun r => refines_ok _

theorem refines_data (junk old : Nat → Byte) (P : Platform α) (branch : Codec β) (d fuel : Nat) :
    Refines (readData P branch d fuel) (rawData junk old P branch d fuel) :=
  refines_bind (refines_vector junk P.sizeT P.index) fun _ => refines_bind (refines_pt old P.scalar d)
    fun _ => refines_bind (refines_pt old P.scalar d) fun _ =>
      refines_bind (refines_node junk P branch fuel) fun _ => refines_ok _

theorem refines_static (junk : Nat → Byte) (P : Platform α) (branch : Codec β) (d fuel : Nat) :
    Refines (loadStatic P branch d fuel) (rawStatic junk P branch d fuel) :=
  refines_bind (refines_use junk P.sizeT) fun _ => refines_data junk junk P branch d fuel

theorem refines_dynamic (junk : Nat → Byte) (P : Platform α) {B : Nat → Type}
    (branch : ∀ d, Codec (B d)) (fuel : Nat) :
    Refines (loadDynamic P branch fuel) (rawDynamic junk P branch fuel) :=
  refines_bind (refines_use junk P.sizeT) fun d =>
    refines_bind (refines_data junk _ P (branch d) d fuel) fun _ => refines_ok _

/-! ## Files that are cut -/

/-- A reader that gives nothing on a failed stream. -/
def Doomed (g : In → Read τ) : Prop := ∀ s, s.fail = true → (g s).Bad

theorem doomed_use (junk : Nat → Byte) (c : Codec τ) : Doomed (rawUse junk c) := fun s hs v s' h => by
  simp [rawUse, In.get, hs] at h

theorem Doomed.bind {g1 : In → Read σ} (h : Doomed g1) (g2 : σ → In → Read τ) :
    Doomed (fun s => (g1 s).bind g2) := fun s hs w s' e => by
  obtain ⟨v, s1, e1, -⟩ := Read.bind_ok e
  exact h s hs v s1 e1

theorem doomed_node (junk : Nat → Byte) (P : Platform α) (branch : Codec β) (fuel : Nat) :
    Doomed (rawNode junk P branch fuel) := by
  cases fuel with
  | zero => exact fun s _ v s' h => by simp [rawNode] at h
  | succ fuel => exact (doomed_use junk P.bool).bind _

/-- First a reader that keeps failed streams failed, then one that gives nothing on them. -/
theorem doomed_then {g1 : In → Read σ} {g2 : σ → In → Read τ}
    (h1 : ∀ s, s.fail = true → (g1 s).Short) (h2 : ∀ v, Doomed (g2 v)) :
    Doomed (fun s => (g1 s).bind g2) := fun s hs w s' e => by
  obtain ⟨v, s1, e1, e2⟩ := Read.bind_ok e
  exact h2 v s1 (h1 s hs v s1 e1) w s' e2

/-- Reading something from a file that is cut within it, then something else that gives nothing on a
failed stream: nothing comes out. -/
theorem bad_of_eof {f1 : List Byte → Load σ} {g1 : In → Read σ} {g2 : σ → In → Read τ}
    (h1 : Refines f1 g1) (h2 : ∀ v, Doomed (g2 v)) {s : List Byte} (a : Nat) (he : f1 s = .eof) :
    ((g1 ⟨s, false, a⟩).bind g2).Bad := fun w s' e => by
  obtain ⟨v, s1, e1, e2⟩ := Read.bind_ok e
  by_cases hf : s1.fail = true
  · exact h2 v s1 hf w s' e2
  · have := h1.back s a v s1 e1 (by simpa using hf)
    rw [he] at this
    cases this

theorem use_bad_of_eof (junk : Nat → Byte) (c : Codec σ) (g2 : σ → In → Read τ) {s : List Byte} (a : Nat)
    (he : readValue c s = .eof) : ((rawUse junk c ⟨s, false, a⟩).bind g2).Bad := fun w s' e => by
  obtain ⟨v, s1, e1, -⟩ := Read.bind_ok e
  simp only [rawUse, In.get, Bool.false_eq_true, if_false] at e1
  by_cases hl : s.length < c.size
  · simp [hl] at e1
  · unfold readValue at he
    rw [if_neg hl] at he
    split at he <;> cases he

/-- Either the file is cut within the first part, or the second part begins where it should. -/
theorem cut_cases {f1 : List Byte → Load σ} {g1 : In → Read σ} (h1 : Refines f1 g1) (hs : Stable f1)
    {v : σ} {b1 b2 p q : List Byte} (hr : ∀ rest, f1 (b1 ++ rest) = .ok v rest)
    (e : b1 ++ b2 = p ++ q) :
    (f1 p = .eof ∧ b2.length < q.length) ∨
      ∃ p2, p = b1 ++ p2 ∧ b2 = p2 ++ q ∧
        ∀ a, g1 ⟨p, false, a⟩ = .ok v ⟨p2, false, a + b1.length⟩ := by
  rcases List.append_eq_append_iff.1 e with ⟨p2, rfl, rfl⟩ | ⟨c, rfl, rfl⟩
  · refine Or.inr ⟨p2, rfl, rfl, fun a => ?_⟩
    have := (h1.ok (b1 ++ p2) a v p2 (hr p2)).2
    rw [this]
    congr 2
    simp
  · by_cases hc : c = []
    · subst hc
      refine Or.inr ⟨[], by simp, by simp, fun a => ?_⟩
      have := (h1.ok (p ++ [] ++ []) a v [] (hr []))
      simp only [List.append_nil] at this ⊢
      rw [this.2]
      simp
    · refine Or.inl ⟨?_, ?_⟩
      · refine eof_of_prefix (v := v) hs ?_ hc
        simpa using hr []
      · have := List.length_pos_iff.2 hc
        simp only [List.length_append]
        omega

/-- The range of the last leaf of a tree. -/
def Tree.lastLeaf : Tree β → Nat × Nat
  | .leaf b e => (b, e)
  | .branch _ _ r => r.lastLeaf

/-- The tree with another range in its last leaf. -/
def Tree.setLast (x : Nat × Nat) : Tree β → Tree β
  | .leaf _ _ => .leaf x.1 x.2
  | .branch data l r => .branch data l (r.setLast x)

/-- The outcome of reading `k x` where the bytes of `x` are those in the file and behind them `old`. -/
def cutLeaf (old : Nat → Byte) (P : Platform α) (lp : List Byte) (a : Nat) (k : Nat × Nat → τ) : Read τ :=
  match P.leaf.dec (fill (fun i => old (a + i)) P.leaf.size lp) with
  | some x => .ok (k x) ⟨[], true, a + P.leaf.size⟩
  | none => .invalid

theorem cutLeaf_bind (old : Nat → Byte) (P : Platform α) (lp : List Byte) (a : Nat) (k : Nat × Nat → σ)
    (h : σ → τ) : (cutLeaf old P lp a k).bind (fun v s => .ok (h v) s) =
      cutLeaf old P lp a (fun x => h (k x)) := by
  unfold cutLeaf
  cases P.leaf.dec (fill (fun i => old (a + i)) P.leaf.size lp) <;> rfl

/-- What happens to a reader when the last `q.length` bytes of what it reads are missing.  If at most the
record of the last leaf is concerned, this leaf has an arbitrary range and the rest is as it should be. -/
structure Cut (junk : Nat → Byte) (P : Platform α) (last : Nat × Nat) (k : Nat × Nat → τ)
    (p q : List Byte) (a : Nat) (x : Read τ) : Prop where
  bad : P.leaf.size < q.length → x.Bad
  leaf : q.length ≤ P.leaf.size → ∃ pre lp pad, p = pre ++ lp ∧ P.leaf.enc pad last = lp ++ q ∧
    x = cutLeaf junk P lp (a + pre.length) k

theorem Cut.map {junk : Nat → Byte} {P : Platform α} {last : Nat × Nat} {k : Nat × Nat → σ}
    {p q : List Byte} {a : Nat} {x : Read σ} (h : Cut junk P last k p q a x) (f : σ → τ) :
    Cut junk P last (fun y => f (k y)) p q a (x.bind fun v s => .ok (f v) s) where
  bad hq v s e := by
    obtain ⟨w, s1, e1, -⟩ := Read.bind_ok e
    exact h.bad hq w s1 e1
  leaf hq := by
    obtain ⟨pre, lp, pad, e1, e2, e3⟩ := h.leaf hq
    exact ⟨pre, lp, pad, e1, e2, by rw [e3, cutLeaf_bind]⟩

/-- Bytes in front. -/
theorem Cut.front {junk : Nat → Byte} {P : Platform α} {last : Nat × Nat} {k : Nat × Nat → τ}
    {b p q : List Byte} {a : Nat} {x : Read τ} (h : Cut junk P last k p q (a + b.length) x) :
    Cut junk P last k (b ++ p) q a x where
  bad := h.bad
  leaf hq := by
    obtain ⟨pre, lp, pad, e1, e2, e3⟩ := h.leaf hq
    refine ⟨b ++ pre, lp, pad, by rw [e1, List.append_assoc], e2, ?_⟩
    rw [e3, List.length_append, Nat.add_assoc]

theorem Cut.of_bad {junk : Nat → Byte} {P : Platform α} {last : Nat × Nat} {k : Nat × Nat → τ}
    {p q : List Byte} {a : Nat} {x : Read τ} (h : x.Bad) (hq : P.leaf.size < q.length) :
    Cut junk P last k p q a x := ⟨fun _ => h, fun h' => absurd h' (by omega)⟩

theorem keep_cut (junk : Nat → Byte) (P : Platform α) {x : Nat × Nat} (hx : P.leaf.Good x)
    (pad : Nat → Byte) {p q : List Byte} (hq : q ≠ []) (e : P.leaf.enc pad x = p ++ q) (a : Nat) :
    Cut junk P x id p q a (rawKeep junk P.leaf ⟨p, false, a⟩) := by
  have hl := (hx pad).1
  rw [e, List.length_append] at hl
  have h0 := List.length_pos_iff.2 hq
  refine ⟨fun h => by omega, fun _ => ⟨[], p, pad, rfl, e, ?_⟩⟩
  have h1 : p.length < P.leaf.size := by omega
  have h2 : p.drop P.leaf.size = [] := List.drop_eq_nil_of_le (by omega)
  simp only [rawKeep, In.get, Bool.false_eq_true, if_false, h1, decide_true, h2, cutLeaf,
    List.length_nil, Nat.add_zero, id]
  cases P.leaf.dec (fill (fun i => junk (a + i)) P.leaf.size p) <;> rfl

/-- A written node has more bytes than a leaf record. -/
theorem writeNode_long {P : Platform α} {branch : Codec β} {t : Tree β} (h : t.Fits P branch)
    (hb : ∀ b, P.bool.Good b) (h0 : 0 < P.bool.size) (pad : Nat → Byte) (out : List Byte) :
    out.length + P.leaf.size < (writeNode pad P branch t out).length := by
  induction t generalizing out with
  | leaf b e =>
    simp only [writeNode, writeValue, List.length_append, ((good_leaf h.1 h.2) _).1, (hb true _).1]
    omega
  | branch data l r ih1 ih2 =>
    have h1 := ih1 h.2.1 (writeValue pad branch data (writeValue pad P.bool false out))
    have h2 := ih2 h.2.2 (writeNode pad P branch l
      (writeValue pad branch data (writeValue pad P.bool false out)))
    have h3 : out.length ≤ (writeValue pad branch data (writeValue pad P.bool false out)).length := by
      simp [writeValue]
    rw [writeNode]
    omega

theorem node_cut {P : Platform α} {branch : Codec β} {t : Tree β} (h : t.Fits P branch)
    (hb : ∀ b, P.bool.Good b) (h0 : 0 < P.bool.size) (pad junk : Nat → Byte) (fuel : Nat)
    (hf : Spec.height t < fuel) {out body p q : List Byte}
    (e : writeNode pad P branch t out = out ++ body) (hq : q ≠ []) (hpq : body = p ++ q) (a : Nat) :
    Cut junk P t.lastLeaf (fun x => t.setLast x) p q a (rawNode junk P branch fuel ⟨p, false, a⟩) := by
  induction t generalizing fuel out body p q a with
  | leaf b e' =>
    obtain ⟨fuel, rfl⟩ : ∃ k, fuel = k + 1 := ⟨fuel - 1, by omega⟩
    have hx := good_leaf h.1 h.2
    obtain ⟨b1, e1, r1⟩ := recovers_value (hb true) pad out
    simp only [writeNode, e1] at e
    rw [writeValue, List.append_assoc, List.append_cancel_left_eq] at e
    rw [hpq] at e
    rw [rawNode]
    rcases cut_cases (refines_use junk P.bool) (stable_value P.bool) r1 e with ⟨he, hl⟩ | ⟨p2, rfl, e2, hg⟩
    · rw [(hx _).1] at hl
      exact .of_bad (use_bad_of_eof junk P.bool _ a he) hl
    · rw [hg a]
      simp only [Read.bind, if_true]
      exact ((keep_cut junk P hx _ hq e2 _).map (fun x => (Tree.leaf x.1 x.2 : Tree β))).front
  | branch data l r ih1 ih2 =>
    obtain ⟨fuel, rfl⟩ : ∃ k, fuel = k + 1 := ⟨fuel - 1, by omega⟩
    have hh : Spec.height (.branch data l r : Tree β) = max (Spec.height l) (Spec.height r) + 1 := rfl
    have hl : Spec.height l < fuel := by omega
    have hr : Spec.height r < fuel := by omega
    obtain ⟨b1, e1, r1⟩ := recovers_value (hb false) pad out
    obtain ⟨b2, e2, r2⟩ := recovers_value h.1 pad (out ++ b1)
    obtain ⟨b3, e3, r3⟩ := recovers_node h.2.1 hb pad fuel hl (out ++ b1 ++ b2)
    obtain ⟨b4, e4, r4⟩ := recovers_node h.2.2 hb pad fuel hr (out ++ b1 ++ b2 ++ b3)
    have h4 := writeNode_long h.2.2 hb h0 pad (out ++ b1 ++ b2 ++ b3)
    rw [writeNode, e1, e2, e3, e4] at e
    simp only [List.append_assoc, List.append_cancel_left_eq] at e
    rw [e4] at h4
    simp only [List.length_append] at h4
    rw [hpq] at e
    rw [rawNode]
    rcases cut_cases (refines_use junk P.bool) (stable_value P.bool) r1 e with ⟨he, hl'⟩ | ⟨p2, rfl, e, hg⟩
    · exact .of_bad (use_bad_of_eof junk P.bool _ a he) (by simp only [List.length_append] at hl'; omega)
    rw [hg a]
    simp only [Read.bind, Bool.false_eq_true, if_false]
    refine Cut.front ?_
    rcases cut_cases (refines_keep junk branch) (stable_value branch) r2 e with
      ⟨he, hl'⟩ | ⟨p3, rfl, e, hg⟩
    · refine .of_bad (bad_of_eof (refines_keep junk branch)
        (fun v => (doomed_node junk P branch fuel).bind _) _ he) ?_
      simp only [List.length_append] at hl'
      omega
    rw [hg]
    simp only [Read.bind]
    refine Cut.front ?_
    rcases cut_cases (refines_node junk P branch fuel) (stable_node P branch fuel) r3 e with
      ⟨he, hl'⟩ | ⟨p4, rfl, e, hg⟩
    · refine .of_bad (bad_of_eof (refines_node junk P branch fuel)
        (fun v => (doomed_node junk P branch fuel).bind _) _ he) ?_
      omega
    rw [hg]
    simp only [Read.bind]
    refine Cut.front ?_
    exact (ih2 h.2.2 fuel hr e4 hq e _).map (fun r => (Tree.branch data l r : Tree β))

theorem data_cut {P : Platform α} {branch : Codec β} {t : TreeData α d β} (h : t.Fits P branch)
    (h0 : 0 < P.bool.size) (pad junk old : Nat → Byte) (fuel : Nat) (hf : Spec.height t.root < fuel)
    {out body p q : List Byte} (e : writeData pad P branch t out = out ++ body) (hq : q ≠ [])
    (hpq : body = p ++ q) (a : Nat) :
    Cut junk P t.root.lastLeaf (fun x => { t with root := t.root.setLast x }) p q a
      (rawData junk old P branch d fuel ⟨p, false, a⟩) := by
  obtain ⟨b1, e1, r1⟩ := recovers_vector h.length h.indices pad out
  obtain ⟨b2, e2, r2⟩ := recovers_pt h.min pad (out ++ b1)
  obtain ⟨b3, e3, r3⟩ := recovers_pt h.max pad (out ++ b1 ++ b2)
  obtain ⟨b4, e4, r4⟩ := recovers_node h.root h.bool pad fuel hf (out ++ b1 ++ b2 ++ b3)
  have h4 := writeNode_long h.root h.bool h0 pad (out ++ b1 ++ b2 ++ b3)
  rw [writeData, e1, e2, e3, e4] at e
  simp only [List.append_assoc, List.append_cancel_left_eq] at e
  rw [e4] at h4
  simp only [List.length_append] at h4
  rw [hpq] at e
  have hN := doomed_node junk P branch fuel
  have hP := (refines_pt old P.scalar d).sticky
  unfold rawData
  rcases cut_cases (refines_vector junk P.sizeT P.index) (stable_vector P.sizeT P.index) r1 e with
    ⟨he, hl⟩ | ⟨p2, rfl, e, hg⟩
  · refine .of_bad (bad_of_eof (refines_vector junk P.sizeT P.index)
      (fun v => doomed_then hP fun _ => doomed_then hP fun _ => hN.bind _) _ he) ?_
    simp only [List.length_append] at hl
    omega
  rw [hg]
  simp only [Read.bind]
  refine Cut.front ?_
  rcases cut_cases (refines_pt old P.scalar d) (stable_pt P.scalar d) r2 e with
    ⟨he, hl⟩ | ⟨p3, rfl, e, hg⟩
  · refine .of_bad (bad_of_eof (refines_pt old P.scalar d)
      (fun v => doomed_then hP fun _ => hN.bind _) _ he) ?_
    simp only [List.length_append] at hl
    omega
  rw [hg]
  simp only [Read.bind]
  refine Cut.front ?_
  rcases cut_cases (refines_pt old P.scalar d) (stable_pt P.scalar d) r3 e with
    ⟨he, hl⟩ | ⟨p4, rfl, e, hg⟩
  · exact .of_bad (bad_of_eof (refines_pt old P.scalar d) (fun v => hN.bind _) _ he) (by omega)
  rw [hg]
  simp only [Read.bind]
  refine Cut.front ?_
  exact (node_cut h.root h.bool h0 pad junk fuel hf e4 hq e _).map
    (fun root => (⟨t.indices, t.rootBox, root⟩ : TreeData α d β))

theorem static_cut {P : Platform α} {branch : Codec β} {t : TreeData α d β} (h : t.Fits P branch)
    (h0 : 0 < P.bool.size) (pad junk : Nat → Byte) (fuel : Nat) (hf : Spec.height t.root < fuel)
    {out p q : List Byte} (hq : q ≠ []) (hpq : saveData pad P branch t out = out ++ (p ++ q)) (a : Nat) :
    Cut junk P t.root.lastLeaf (fun x => { t with root := t.root.setLast x }) p q a
      (rawStatic junk P branch d fuel ⟨p, false, a⟩) := by
  obtain ⟨b1, e1, r1⟩ := recovers_value h.dim pad out
  obtain ⟨b2, e2, r2⟩ := recovers_data h pad fuel hf (out ++ b1)
  rw [saveData, e1, e2, List.append_assoc] at hpq
  have hpq := List.append_cancel_left hpq
  have hl2 : P.leaf.size < b2.length := by
    have := writeNode_long h.root h.bool h0 pad (writeArray pad P.scalar (List.ofFn t.rootBox.max)
      (writeArray pad P.scalar (List.ofFn t.rootBox.min)
        (writeVector pad P.sizeT P.index t.indices (out ++ b1))))
    obtain ⟨c1, f1, -⟩ := recovers_vector h.length h.indices pad (out ++ b1)
    obtain ⟨c2, f2, -⟩ := recovers_pt h.min pad (out ++ b1 ++ c1)
    obtain ⟨c3, f3, -⟩ := recovers_pt h.max pad (out ++ b1 ++ c1 ++ c2)
    rw [← writeData, e2, f1, f2, f3] at this
    simp only [List.length_append] at this
    omega
  unfold rawStatic
  rcases cut_cases (refines_use junk P.sizeT) (stable_value P.sizeT) r1 hpq with
    ⟨he, hl⟩ | ⟨p2, rfl, e, hg⟩
  · exact .of_bad (use_bad_of_eof junk P.sizeT _ a he) (by omega)
  rw [hg]
  simp only [Read.bind]
  exact Cut.front (data_cut h h0 pad junk junk fuel hf e2 hq e _)

theorem dynamic_cut {P : Platform α} {B : Nat → Type} {branch : ∀ d, Codec (B d)}
    {t : TreeData α d (B d)} (h : t.Fits P (branch d))
    (h0 : 0 < P.bool.size) (pad junk : Nat → Byte) (fuel : Nat) (hf : Spec.height t.root < fuel)
    {out p q : List Byte} (hq : q ≠ []) (hpq : saveData pad P (branch d) t out = out ++ (p ++ q))
    (a : Nat) :
    Cut junk P t.root.lastLeaf
      (fun x => (⟨d, { t with root := t.root.setLast x }⟩ : Σ d, TreeData α d (B d))) p q a
      (rawDynamic junk P branch fuel ⟨p, false, a⟩) := by
  obtain ⟨b1, e1, r1⟩ := recovers_value h.dim pad out
  obtain ⟨b2, e2, r2⟩ := recovers_data h pad fuel hf (out ++ b1)
  rw [saveData, e1, e2, List.append_assoc] at hpq
  have hpq := List.append_cancel_left hpq
  have hl2 : P.leaf.size < b2.length := by
    have := writeNode_long h.root h.bool h0 pad (writeArray pad P.scalar (List.ofFn t.rootBox.max)
      (writeArray pad P.scalar (List.ofFn t.rootBox.min)
        (writeVector pad P.sizeT P.index t.indices (out ++ b1))))
    obtain ⟨c1, f1, -⟩ := recovers_vector h.length h.indices pad (out ++ b1)
    obtain ⟨c2, f2, -⟩ := recovers_pt h.min pad (out ++ b1 ++ c1)
    obtain ⟨c3, f3, -⟩ := recovers_pt h.max pad (out ++ b1 ++ c1 ++ c2)
    rw [← writeData, e2, f1, f2, f3] at this
    simp only [List.length_append] at this
    omega
  unfold rawDynamic
  rcases cut_cases (refines_use junk P.sizeT) (stable_value P.sizeT) r1 hpq with
    ⟨he, hl⟩ | ⟨p2, rfl, e, hg⟩
  · exact .of_bad (use_bad_of_eof junk P.sizeT _ a he) (by omega)
  rw [hg]
  simp only [Read.bind]
  exact Cut.front ((data_cut h h0 pad junk (fun _ => 0) fuel hf e2 hq e _).map
    (fun t => (⟨d, t⟩ : Σ d, TreeData α d (B d))))

/-! ## Writing -/

/-- A writer for failing streams against a writer for good ones: what the device has is a prefix of what
should have been written, and all of it as long as the stream is good. -/
def Attempts (f : List Byte → List Byte) (g : Out → Out) : Prop :=
  (∀ out, out <+: f out) ∧ ∀ s : Out,
    (s.bad = true → g s = s) ∧
    (s.bad = false → ((g s).bad = false → (g s).written = f s.written) ∧
      s.written <+: (g s).written ∧ (g s).written <+: f s.written)

theorem Attempts.seq {f1 f2 : List Byte → List Byte} {g1 g2 : Out → Out} (h1 : Attempts f1 g1)
    (h2 : Attempts f2 g2) : Attempts (fun out => f2 (f1 out)) (fun s => g2 (g1 s)) := by
  refine ⟨fun out => (h1.1 out).trans (h2.1 _), fun s => ⟨fun hs => ?_, fun hs => ?_⟩⟩
  · simp only [(h1.2 s).1 hs, (h2.2 s).1 hs]
  · obtain ⟨a1, a2, a3⟩ := (h1.2 s).2 hs
    by_cases hb : (g1 s).bad = true
    · have := (h2.2 (g1 s)).1 hb
      simp only [this]
      exact ⟨fun h => absurd h (by simp [hb]), a2, a3.trans (h2.1 _)⟩
    · have hb' : (g1 s).bad = false := by simpa using hb
      obtain ⟨c1, c2, c3⟩ := (h2.2 (g1 s)).2 hb'
      rw [a1 hb'] at c1 c2 c3
      exact ⟨c1, (h1.1 _).trans c2, c3⟩

theorem attempts_put (dev : Nat → Nat → Nat) (bs : List Byte → List Byte) :
    Attempts (fun out => out ++ bs out) (fun s => s.put dev (bs s.written)) := by
  refine ⟨fun out => List.prefix_append _ _, fun s => ⟨fun hs => ?_, fun hs => ?_⟩⟩
  · simp [Out.put, hs]
  · simp only [Out.put, hs, Bool.false_eq_true, if_false]
    split
    · exact ⟨fun _ => rfl, List.prefix_append _ _, List.prefix_rfl⟩
    · refine ⟨fun h => absurd h (by simp), List.prefix_append _ _, ?_⟩
      exact (List.prefix_append_right_inj _).2 (List.take_prefix _ _)

theorem attempts_value (pad : Nat → Byte) (dev : Nat → Nat → Nat) (c : Codec τ) (v : τ) :
    Attempts (writeValue pad c v) (tryValue pad dev c v) :=
  attempts_put dev fun out => c.enc (fun i => pad (out.length + i)) v

theorem writeArray_prefix (pad : Nat → Byte) (c : Codec τ) (l : List τ) (out : List Byte) :
    out <+: writeArray pad c l out := by
  induction l generalizing out with
  | nil => exact List.prefix_rfl
  | cons x l ih => exact (List.prefix_append _ _).trans (ih (writeValue pad c x out))

theorem attempts_array (pad : Nat → Byte) (dev : Nat → Nat → Nat) (c : Codec τ) (l : List τ) :
    Attempts (writeArray pad c l) (tryArray pad dev c l) := by
  have h := attempts_put dev fun out => (writeArray pad c l out).drop out.length
  have e : (fun out => out ++ (writeArray pad c l out).drop out.length) = writeArray pad c l := by
    funext out
    obtain ⟨b, hb⟩ := writeArray_prefix pad c l out
    rw [← hb, List.drop_left]
  rw [e] at h
  exact h

theorem attempts_vector (pad : Nat → Byte) (dev : Nat → Nat → Nat) (sizeT : Codec Nat) (c : Codec τ)
    (l : List τ) : Attempts (writeVector pad sizeT c l) (tryVector pad dev sizeT c l) :=
  (attempts_value pad dev sizeT l.length).seq (attempts_array pad dev c l)

theorem attempts_node (pad : Nat → Byte) (dev : Nat → Nat → Nat) (P : Platform α) (branch : Codec β)
    (t : Tree β) : Attempts (writeNode pad P branch t) (tryNode pad dev P branch t) := by
  induction t with
  | leaf b e => exact (attempts_value pad dev P.bool true).seq (attempts_value pad dev P.leaf (b, e))
  | branch data l r ih1 ih2 =>
    exact (((attempts_value pad dev P.bool false).seq (attempts_value pad dev branch data)).seq ih1).seq ih2

theorem attempts_save (pad : Nat → Byte) (dev : Nat → Nat → Nat) (P : Platform α) (branch : Codec β)
    (t : TreeData α d β) : Attempts (saveData pad P branch t) (trySave pad dev P branch t) :=
  ((((attempts_value pad dev P.sizeT d).seq (attempts_vector pad dev P.sizeT P.index t.indices)).seq
    (attempts_array pad dev P.scalar (List.ofFn t.rootBox.min))).seq
    (attempts_array pad dev P.scalar (List.ofFn t.rootBox.max))).seq
    (attempts_node pad dev P branch t.root)

end

end Pico
