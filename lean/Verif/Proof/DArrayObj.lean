import Verif.SpecDArrayObj
import Verif.Props.DArray

/-!
# Invariants of programs with DArrays
-/

namespace Pico.Darr

open Spec

variable {β : Type}

/-- `getitem` never reads outside of the array, and finds the element at the position that it computed. -/
theorem getitem_get {τ : Type} (a : List τ) (i : Int) :
    getitem a i = .throws ∨ ∃ x, getitem a i = .ok x ∧ a[(toU64 (getitemIndex a.length i)).toNat]? = some x := by
  unfold getitem
  split
  · exact .inl rfl
  · rename_i hn
    push Not at hn
    have h0 : 0 ≤ toU64 (getitemIndex a.length i) := by unfold toU64; omega
    refine .inr ⟨a[(toU64 (getitemIndex a.length i)).toNat]'(by omega), ?_, List.getElem?_eq_getElem (by omega)⟩
    rw [readAt_of_range h0 (by omega)]

/-- Numbers that have not been given out are not in use. -/
def Mem.Fresh (m : Mem β) : Prop := ∀ b, m.next ≤ b → m.blocks b = none

/-- What a block holds. -/
def Mem.vals (m : Mem β) (b : Nat) : List β := ((m.blocks b).map Blk.vals).getD []

/-- The block exists. -/
def Mem.Live (m : Mem β) (b : Nat) : Prop := ∃ blk, m.blocks b = some blk

theorem Mem.Live.lt {m : Mem β} (hf : m.Fresh) {b : Nat} (h : m.Live b) : b < m.next := by
  obtain ⟨blk, h⟩ := h
  by_contra hb
  rw [hf b (by omega)] at h
  simp at h

theorem Mem.vals_congr {m m' : Mem β} {b : Nat} (h : m'.blocks b = m.blocks b) : m'.vals b = m.vals b := by
  rw [vals, vals, h]

theorem Mem.live_congr {m m' : Mem β} {b : Nat} (h : m'.blocks b = m.blocks b) : m'.Live b ↔ m.Live b := by
  rw [Live, Live, h]

theorem Mem.alloc_fresh {m : Mem β} (h : m.Fresh) (e : Nat) (l : List β) : (m.alloc e l).1.Fresh := fun b hb => by
  simp only [Mem.alloc] at hb ⊢
  rw [Function.update_of_ne (by omega)]
  exact h b (by omega)

theorem Mem.free_fresh {m : Mem β} (h : m.Fresh) (b : Nat) : (m.free b).Fresh := fun c hc => by
  simp only [Mem.free] at hc ⊢
  by_cases e : c = b
  · subst e; simp
  · rw [Function.update_of_ne e]; exact h c hc

theorem Mem.alloc_of_lt {m : Mem β} {e : Nat} {l : List β} {b : Nat} (h : b < m.next) :
    (m.alloc e l).1.blocks b = m.blocks b := by
  simp only [Mem.alloc]
  rw [Function.update_of_ne (by omega)]

theorem Mem.alloc_self (m : Mem β) (e : Nat) (l : List β) :
    (m.alloc e l).1.blocks m.next = some ⟨l.length + e, l⟩ := by
  simp [Mem.alloc]

theorem Mem.free_of_ne {m : Mem β} {b c : Nat} (h : b ≠ c) : (m.free c).blocks b = m.blocks b := by
  simp only [Mem.free]
  rw [Function.update_of_ne h]

theorem Mem.free_self (m : Mem β) (b : Nat) : (m.free b).blocks b = none := by simp [Mem.free]

/-- What a change of memory from `bs` to `bs'` may do. -/
structure Changed (m : Mem β) (bs : List Nat) (m' : Mem β) (bs' : List Nat) : Prop where
  fresh : m'.Fresh
  next : m.next ≤ m'.next
  live : ∀ b ∈ bs', m'.Live b
  nodup : bs'.Nodup
  from_ : ∀ b ∈ bs', b ∈ bs ∨ m.next ≤ b
  frame : ∀ b, b < m.next → b ∉ bs → m'.blocks b = m.blocks b
  cell : ∀ (c b : Nat), bs[c]? = some b → m'.Live b → bs'[c]? = some b

theorem refill_ok (m : Mem β) (extra b : Nat) (l : List β) (hf : m.Fresh) (hb : m.Live b) :
    ∃ m' b', m.refill extra b l = .ok (m', b') ∧ Changed m [b] m' [b'] ∧ m'.vals b' = l := by
  obtain ⟨blk, h⟩ := hb
  have hlt : b < m.next := Mem.Live.lt hf ⟨blk, h⟩
  unfold Mem.refill
  rw [h]
  simp only
  split
  · refine ⟨_, _, rfl, ⟨fun c hc => ?_, le_rfl, ?_, by simp, by simp, fun c _ hc => ?_, ?_⟩, by simp [Mem.vals]⟩
    · show Function.update m.blocks b _ c = none
      rw [Function.update_of_ne (by have : m.next ≤ c := hc; omega)]
      exact hf c hc
    · intro c hc
      simp only [List.mem_singleton] at hc
      subst hc
      exact ⟨⟨blk.cap, l⟩, by simp⟩
    · show Function.update m.blocks b _ c = _
      rw [Function.update_of_ne (by simpa using hc)]
    · intro c b' hc _
      exact hc
  · refine ⟨((m.free b).alloc extra l).1, (m.free b).next, rfl, ⟨Mem.alloc_fresh (Mem.free_fresh hf b) _ _, by simp [Mem.alloc, Mem.free], ?_, by simp, ?_,
      fun c hc hcb => ?_, fun c b' hc hl => ?_⟩, ?_⟩
    · intro c hc
      have : c = (m.free b).next := by simpa [Mem.alloc] using hc
      subst this
      exact ⟨_, Mem.alloc_self _ _ _⟩
    · intro c hc
      have : c = (m.free b).next := by simpa [Mem.alloc] using hc
      subst this
      exact .inr le_rfl
    · rw [Mem.alloc_of_lt (show c < (m.free b).next from hc), Mem.free_of_ne (by simpa using hcb)]
    · exfalso
      have : b' = b := by
        cases c with
        | zero => simpa using hc.symm
        | succ c => simp at hc
      subst this
      obtain ⟨blk', h'⟩ := hl
      rw [Mem.alloc_of_lt (show b' < (m.free b').next from hlt), Mem.free_self] at h'
      simp at h'
    · show Mem.vals ((m.free b).alloc extra l).1 (m.free b).next = l
      rw [Mem.vals, Mem.alloc_self]
      rfl

theorem newCells_ok (extra : Nat → Nat) : ∀ (m : Mem β) (res : List (List β)), m.Fresh →
    Changed m [] (newCells extra m res).1 (newCells extra m res).2 ∧
      (newCells extra m res).2.map (newCells extra m res).1.vals = res
  | m, [], hf => ⟨⟨hf, le_rfl, by simp [newCells], by simp [newCells], by simp [newCells], fun _ _ _ => rfl, by simp⟩, rfl⟩
  | m, r :: rs, hf => by
    obtain ⟨h2, h3⟩ := newCells_ok extra (m.alloc (extra r.length) r).1 rs (Mem.alloc_fresh hf _ _)
    rw [newCells]
    generalize newCells extra (m.alloc (extra r.length) r).1 rs = y at h2 h3
    obtain ⟨m', bs'⟩ := y
    have hk : m'.blocks m.next = some ⟨r.length + extra r.length, r⟩ := by
      rw [h2.frame m.next (by simp [Mem.alloc]) (by simp), Mem.alloc_self]
    have hge : ∀ b ∈ bs', m.next + 1 ≤ b := fun b hb => (h2.from_ b hb).resolve_left (by simp)
    refine ⟨⟨h2.fresh, (Nat.le_succ _).trans h2.next, ?_, ?_, ?_, fun c hc _ => ?_, by simp⟩, ?_⟩
    · intro b hb
      rcases List.mem_cons.1 hb with rfl | hb
      · exact ⟨_, hk⟩
      · exact h2.live b hb
    · exact List.nodup_cons.2 ⟨fun h => by have := hge _ h; simp only [Mem.alloc] at this; omega, h2.nodup⟩
    · intro b hb
      rcases List.mem_cons.1 hb with rfl | hb
      · exact .inr le_rfl
      · exact .inr (by have := hge b hb; omega)
    · rw [h2.frame c (by simp [Mem.alloc]; omega) (by simp), Mem.alloc_of_lt hc]
    · simp only at h3
      simp only [List.map_cons, h3, List.cons.injEq, and_true]
      show m'.vals m.next = r
      rw [Mem.vals, hk]
      rfl

theorem refillCells_ok (extra : Nat → Nat) : ∀ (m : Mem β) (bs : List Nat) (res : List (List β)), m.Fresh →
    (∀ b ∈ bs, m.Live b) → bs.Nodup →
    ∃ m' bs', refillCells extra m bs res = .ok (m', bs') ∧ Changed m bs m' bs' ∧ bs'.map m'.vals = res
  | m, [], res, hf, _, _ => ⟨_, _, by rw [refillCells], (newCells_ok extra m res hf).1, (newCells_ok extra m res hf).2⟩
  | m, b :: bs, [], hf, hl, hn => by
    obtain ⟨hb, hn⟩ := List.nodup_cons.1 hn
    have hbl := (hl b (by simp)).lt hf
    obtain ⟨m', bs', h1, h2, h3⟩ := refillCells_ok extra (m.free b) bs [] (Mem.free_fresh hf b)
      (fun c hc => (Mem.live_congr (Mem.free_of_ne (by rintro rfl; exact hb hc))).2 (hl c (by simp [hc]))) hn
    obtain rfl : bs' = [] := by simpa using h3
    refine ⟨m', [], by rw [refillCells]; exact h1, ⟨h2.fresh, h2.next, by simp, by simp, by simp, fun c hc hcb => ?_,
      fun c b' hc hl' => ?_⟩, rfl⟩
    · rw [h2.frame c hc (by simp at hcb; exact hcb.2), Mem.free_of_ne (by simp at hcb; exact hcb.1)]
    · exfalso
      cases c with
      | zero =>
        obtain rfl : b = b' := by simpa using hc
        obtain ⟨blk, h⟩ := hl'
        rw [h2.frame b hbl hb, Mem.free_self] at h
        simp at h
      | succ c => simpa using h2.cell c b' (by simpa using hc) hl'
  | m, b :: bs, r :: rs, hf, hl, hn => by
    obtain ⟨hb, hn⟩ := List.nodup_cons.1 hn
    have hbl := (hl b (by simp)).lt hf
    obtain ⟨m1, b1, h1, c1, v1⟩ := refill_ok m (extra r.length) b r hf (hl b (by simp))
    have hlt : ∀ c ∈ bs, c < m.next := fun c hc => (hl c (by simp [hc])).lt hf
    have hne : ∀ c ∈ bs, c ≠ b := fun c hc => by rintro rfl; exact hb hc
    have hsame : ∀ c ∈ bs, m1.blocks c = m.blocks c := fun c hc => c1.frame c (hlt c hc) (by simpa using hne c hc)
    obtain ⟨m', bs', h2, c2, v2⟩ := refillCells_ok extra m1 bs rs c1.fresh
      (fun c hc => (Mem.live_congr (hsame c hc)).2 (hl c (by simp [hc]))) hn
    have hb1 : b1 = b ∨ m.next ≤ b1 := by simpa using c1.from_ b1 (by simp)
    have hb1lt : b1 < m1.next := (c1.live b1 (by simp)).lt c1.fresh
    have hb1bs : b1 ∉ bs := fun h => by
      rcases hb1 with rfl | h'
      · exact hb h
      · have := hlt _ h; omega
    have hkeep : m'.blocks b1 = m1.blocks b1 := c2.frame b1 hb1lt hb1bs
    refine ⟨m', b1 :: bs', ?_, ⟨c2.fresh, c1.next.trans c2.next, ?_, ?_, ?_, fun c hc hcb => ?_, fun c b' hc hl' => ?_⟩, ?_⟩
    · rw [refillCells, h1]
      simp only [Call.bind, h2]
    · intro c hc
      rcases List.mem_cons.1 hc with rfl | hc
      · exact (Mem.live_congr hkeep).2 (c1.live c (by simp))
      · exact c2.live c hc
    · refine List.nodup_cons.2 ⟨fun h => ?_, c2.nodup⟩
      rcases c2.from_ b1 h with h' | h'
      · exact hb1bs h'
      · omega
    · intro c hc
      rcases List.mem_cons.1 hc with rfl | hc
      · exact hb1.imp (fun h => by simp [h]) id
      · exact (c2.from_ c hc).imp (fun h => by simp [h]) c1.next.trans
    · simp only [List.mem_cons, not_or] at hcb
      rw [c2.frame c (hc.trans_le c1.next) hcb.2, c1.frame c hc (by simpa using hcb.1)]
    · cases c with
      | zero =>
        obtain rfl : b = b' := by simpa using hc
        have : m1.Live b := (Mem.live_congr (c2.frame b (hbl.trans_le c1.next) hb)).1 hl'
        simpa using c1.cell 0 b (by simp) this
      | succ c => simpa using c2.cell c b' (by simpa using hc) hl'
    · rw [List.map_cons, v2, Mem.vals_congr hkeep, v1]

theorem copyCells_ok : ∀ (m : Mem β) (cs : List Nat), m.Fresh → (∀ b ∈ cs, m.Live b) →
    ∃ m' bs', copyCells m cs = .ok (m', bs') ∧ Changed m [] m' bs' ∧ bs'.map m'.vals = cs.map m.vals
  | m, [], hf, _ => ⟨m, [], by rw [copyCells], ⟨hf, le_rfl, by simp, by simp, by simp, fun _ _ _ => rfl, by simp⟩, rfl⟩
  | m, b :: cs, hf, hl => by
    obtain ⟨blk, hb⟩ := hl b (by simp)
    have hlt : ∀ c ∈ cs, c < m.next := fun c hc => (hl c (by simp [hc])).lt hf
    obtain ⟨m', bs', h1, h2, h3⟩ := copyCells_ok (m.alloc 0 blk.vals).1 cs (Mem.alloc_fresh hf _ _)
      (fun c hc => (Mem.live_congr (Mem.alloc_of_lt (hlt c hc))).2 (hl c (by simp [hc])))
    have hk : m'.blocks m.next = some ⟨blk.vals.length + 0, blk.vals⟩ := by
      rw [h2.frame m.next (by simp [Mem.alloc]) (by simp), Mem.alloc_self]
    have hge : ∀ b ∈ bs', m.next + 1 ≤ b := fun b hb => (h2.from_ b hb).resolve_left (by simp)
    refine ⟨m', m.next :: bs', ?_, ⟨h2.fresh, (Nat.le_succ _).trans h2.next, ?_, ?_, ?_, fun c hc _ => ?_, by simp⟩, ?_⟩
    · rw [copyCells, hb]
      simp only [h1, Call.bind]
      rfl
    · intro b hb
      rcases List.mem_cons.1 hb with rfl | hb
      · exact ⟨_, hk⟩
      · exact h2.live b hb
    · exact List.nodup_cons.2 ⟨fun h => by have := hge _ h; omega, h2.nodup⟩
    · intro b hb
      rcases List.mem_cons.1 hb with rfl | hb
      · exact .inr le_rfl
      · exact .inr (by have := hge b hb; omega)
    · rw [h2.frame c (by simp [Mem.alloc]; omega) (by simp), Mem.alloc_of_lt hc]
    · rw [List.map_cons, List.map_cons, h3, Mem.vals, hk, Mem.vals, hb]
      congr 1
      exact List.map_congr_left fun c hc => Mem.vals_congr (Mem.alloc_of_lt (hlt c hc))

theorem freeAll_blocks (bs : List Nat) (m : Mem β) : (bs.foldl Mem.free m).next = m.next ∧
    (∀ b ∈ bs, (bs.foldl Mem.free m).blocks b = none) ∧ ∀ b ∉ bs, (bs.foldl Mem.free m).blocks b = m.blocks b := by
  induction bs generalizing m with
  | nil => simp
  | cons c bs ih =>
    obtain ⟨h1, h2, h3⟩ := ih (m.free c)
    refine ⟨h1, fun b hb => ?_, fun b hb => ?_⟩
    · rw [List.foldl_cons]
      by_cases hbs : b ∈ bs
      · exact h2 b hbs
      · obtain rfl : b = c := (List.mem_cons.1 hb).resolve_right hbs
        rw [h3 b hbs, Mem.free_self]
    · simp only [List.mem_cons, not_or] at hb
      rw [List.foldl_cons, h3 b hb.2, Mem.free_of_ne hb.1]

/-- The invariant of programs. -/
structure Inv (w : World β) : Prop where
  notNull : ∀ d, w.arrays d ≠ some none
  live : ∀ d t bs, w.arrays d = some (some (t, bs)) → ∀ b ∈ bs, w.mem.Live b
  nodup : ∀ d t bs, w.arrays d = some (some (t, bs)) → bs.Nodup
  disjoint : ∀ d d' t t' bs bs', d ≠ d' → w.arrays d = some (some (t, bs)) → w.arrays d' = some (some (t', bs')) →
    ∀ b ∈ bs, b ∉ bs'
  fresh : w.mem.Fresh
  freshArray : ∀ d, w.nextArray ≤ d → w.arrays d = none
  view : ∀ v x, w.views v = some x → x.block < w.mem.next ∧ (w.mem.Live x.block →
    ∃ t bs, w.arrays x.darray = some (some (t, bs)) ∧ bs[x.cell]? = some x.block)

theorem contents_some (w : World β) {d : Nat} {t : Elt} {bs : List Nat} (h : w.arrays d = some (some (t, bs))) :
    contents w d = some (t, bs.map w.mem.vals) := by
  simp only [contents, h, Option.bind_some, Option.map_some]
  rfl

theorem Inv.of_contents {w : World β} {d : Nat} {t : Elt} {xs : List (List β)}
    (h : contents w d = some (t, xs)) : ∃ bs, w.arrays d = some (some (t, bs)) ∧ xs = bs.map w.mem.vals := by
  unfold contents at h
  cases ha : w.arrays d with
  | none => rw [ha] at h; simp at h
  | some a =>
    cases a with
    | none => rw [ha] at h; simp at h
    | some x =>
      rw [ha] at h
      simp only [Option.bind_some, Option.map_some, Option.some.injEq, Prod.mk.injEq] at h
      obtain ⟨rfl, rfl⟩ := h
      exact ⟨x.2, rfl, rfl⟩

theorem contents_congr {w w' : World β} {d : Nat} (ha : w'.arrays d = w.arrays d)
    (hm : ∀ t bs, w.arrays d = some (some (t, bs)) → ∀ b ∈ bs, w'.mem.blocks b = w.mem.blocks b) :
    contents w' d = contents w d := by
  cases h : w.arrays d with
  | none => simp [contents, ha, h]
  | some a =>
    cases a with
    | none => simp [contents, ha, h]
    | some x =>
      rw [contents_some w (t := x.1) (bs := x.2) h, contents_some w' (t := x.1) (bs := x.2) (ha.trans h)]
      congr 2
      exact List.map_congr_left fun b hb => Mem.vals_congr (hm _ _ h b hb)

theorem Inv.init : Inv (World.init : World β) :=
  ⟨by simp [World.init], by simp [World.init], by simp [World.init], by simp [World.init], fun _ _ => rfl,
    fun _ _ => rfl, by simp [World.init]⟩

/-- Giving the `DArray` `d` other elements. -/
theorem Inv.install {w : World β} (hw : Inv w) {d : Nat} {bs : List Nat}
    (hd : (∃ t, w.arrays d = some (some (t, bs))) ∨ (d = w.nextArray ∧ bs = [])) {m' : Mem β} {bs' : List Nat}
    (hc : Changed w.mem bs m' bs') (t : Elt) {n : Nat} (hn : w.nextArray ≤ n) (hdn : d < n) {w' : World β}
    (hw' : w' = { w with mem := m', arrays := Function.update w.arrays d (some (some (t, bs'))), nextArray := n }) :
    Inv w' ∧ contents w' d = some (t, bs'.map m'.vals) ∧ ∀ d', d' ≠ d → contents w' d' = contents w d' := by
  subst hw'
  have hold : ∀ d' t' bs0, d' ≠ d → w.arrays d' = some (some (t', bs0)) → ∀ b ∈ bs0, b < w.mem.next ∧ b ∉ bs := by
    intro d' t' bs0 hne h b hb
    refine ⟨(hw.live _ _ _ h b hb).lt hw.fresh, ?_⟩
    rcases hd with ⟨t0, hd⟩ | ⟨-, rfl⟩
    · exact hw.disjoint _ _ _ _ _ _ hne h hd b hb
    · simp
  have hsame : ∀ d' t' bs0, d' ≠ d → w.arrays d' = some (some (t', bs0)) → ∀ b ∈ bs0, m'.blocks b = w.mem.blocks b :=
    fun d' t' bs0 hne h b hb => hc.frame b (hold d' t' bs0 hne h b hb).1 (hold d' t' bs0 hne h b hb).2
  have hnot : ∀ d' t' bs0, d' ≠ d → w.arrays d' = some (some (t', bs0)) → ∀ b ∈ bs0, b ∉ bs' := by
    intro d' t' bs0 hne h b hb hb'
    rcases hc.from_ b hb' with h1 | h1
    · exact (hold d' t' bs0 hne h b hb).2 h1
    · have := (hold d' t' bs0 hne h b hb).1
      omega
  refine ⟨⟨fun d' => ?_, fun d' t' bs0 h b hb => ?_, fun d' t' bs0 h => ?_, fun d1 d2 t1 t2 bs1 bs2 hne h1 h2 b hb => ?_,
    hc.fresh, fun d' hd' => ?_, fun v x hx => ?_⟩, contents_some _ (by simp), fun d' hne => ?_⟩
  · by_cases e : d' = d
    · subst e; simp
    · simp only [Function.update_of_ne e]; exact hw.notNull d'
  · by_cases e : d' = d
    · subst e
      simp only [Function.update_self, Option.some.injEq, Prod.mk.injEq] at h
      exact hc.live b (h.2 ▸ hb)
    · simp only [Function.update_of_ne e] at h
      exact (Mem.live_congr (hsame d' t' bs0 e h b hb)).2 (hw.live _ _ _ h b hb)
  · by_cases e : d' = d
    · subst e
      simp only [Function.update_self, Option.some.injEq, Prod.mk.injEq] at h
      exact h.2 ▸ hc.nodup
    · simp only [Function.update_of_ne e] at h
      exact hw.nodup _ _ _ h
  · by_cases e1 : d1 = d
    · subst e1
      have e2 : d2 ≠ d1 := Ne.symm hne
      simp only [Function.update_self, Option.some.injEq, Prod.mk.injEq] at h1
      simp only [Function.update_of_ne e2] at h2
      intro hb2
      exact hnot d2 t2 bs2 e2 h2 b hb2 (h1.2 ▸ hb)
    · simp only [Function.update_of_ne e1] at h1
      by_cases e2 : d2 = d
      · subst e2
        simp only [Function.update_self, Option.some.injEq, Prod.mk.injEq] at h2
        intro hb2
        exact hnot d1 t1 bs1 e1 h1 b hb (h2.2 ▸ hb2)
      · simp only [Function.update_of_ne e2] at h2
        exact hw.disjoint _ _ _ _ _ _ hne h1 h2 b hb
  · have hd'' : n ≤ d' := hd'
    show Function.update w.arrays d _ d' = none
    rw [Function.update_of_ne (by omega)]
    exact hw.freshArray d' (by omega)
  · obtain ⟨h1, h2⟩ := hw.view v x hx
    refine ⟨h1.trans_le hc.next, fun hl => ?_⟩
    show ∃ t0 bs0, Function.update w.arrays d _ x.darray = _ ∧ _
    by_cases hb : x.block ∈ bs
    · rcases hd with ⟨t0, hd⟩ | ⟨-, rfl⟩
      · obtain ⟨t1, bs1, h3, h4⟩ := h2 (hw.live _ _ _ hd _ hb)
        have e : x.darray = d := by
          by_contra e
          exact hw.disjoint _ _ _ _ _ _ (Ne.symm e) hd h3 _ hb (List.mem_of_getElem? h4)
        rw [e] at h3 ⊢
        rw [hd] at h3
        simp only [Option.some.injEq, Prod.mk.injEq] at h3
        obtain ⟨rfl, rfl⟩ := h3
        exact ⟨t, bs', by simp, hc.cell _ _ h4 hl⟩
      · simp at hb
    · have hl0 : w.mem.Live x.block := (Mem.live_congr (hc.frame _ h1 hb)).1 hl
      obtain ⟨t1, bs1, h3, h4⟩ := h2 hl0
      have e : x.darray ≠ d := by
        intro e
        rw [e] at h3
        rcases hd with ⟨t0, hd⟩ | ⟨hd, -⟩
        · rw [hd] at h3
          simp only [Option.some.injEq, Prod.mk.injEq] at h3
          exact hb (h3.2 ▸ List.mem_of_getElem? h4)
        · rw [hw.freshArray d (by omega)] at h3
          simp at h3
      exact ⟨t1, bs1, by rw [Function.update_of_ne e]; exact h3, h4⟩
  · exact contents_congr (by simp [Function.update_of_ne hne]) fun t' bs0 h b hb => hsame d' t' bs0 hne h b hb

theorem searchInto_ok (extra : Nat → Nat) {m : Mem β} (hf : m.Fresh) (t : Elt) {bs : List Nat}
    (hl : ∀ b ∈ bs, m.Live b) (hn : bs.Nodup) (res : List (List β)) :
    ∃ m' bs', searchInto extra m (some (t, bs)) t res = .ok (m', some (t, bs')) ∧ Changed m bs m' bs' ∧
      bs'.map m'.vals = res := by
  obtain ⟨m', bs', h1, h2, h3⟩ := refillCells_ok extra m bs res hf hl hn
  refine ⟨m', bs', ?_, h2, h3⟩
  simp [searchInto, dtype, data, Call.bind, h1, ofVector]

/-- Views do not change anything else. -/
theorem addView_ok {w : World β} (hw : Inv w) {d b c : Nat} {t : Elt} {bs : List Nat}
    (hd : w.arrays d = some (some (t, bs))) (hc : bs[c]? = some b) :
    ∃ w', w.addView d b c = .ok w' ∧ Inv w' ∧ w'.arrays = w.arrays ∧ w'.mem = w.mem ∧ w'.nextArray = w.nextArray ∧
      w'.nextView = w.nextView + 1 ∧
      w'.views = Function.update w.views w.nextView (some ⟨b, (w.mem.vals b).length, d, c⟩) := by
  obtain ⟨blk, hb⟩ := hw.live _ _ _ hd b (List.mem_of_getElem? hc)
  have hv : w.mem.vals b = blk.vals := by simp [Mem.vals, hb]
  refine ⟨{ w with views := Function.update w.views w.nextView (some ⟨b, blk.vals.length, d, c⟩), nextView := w.nextView + 1 },
    by rw [World.addView, hb], ⟨hw.notNull, hw.live, hw.nodup, hw.disjoint, hw.fresh, hw.freshArray,
    fun v x hx => ?_⟩, rfl, rfl, rfl, rfl, by rw [hv]⟩
  by_cases e : v = w.nextView
  · subst e
    simp only [Function.update_self, Option.some.injEq] at hx
    subst hx
    exact ⟨Mem.Live.lt hw.fresh ⟨blk, hb⟩, fun _ => ⟨t, bs, hd, hc⟩⟩
  · simp only [Function.update_of_ne e] at hx
    exact hw.view v x hx

theorem addViews_ok {d : Nat} {t : Elt} (full : List Nat) : ∀ (bs : List Nat) (c : Nat) {w : World β}, Inv w →
    w.arrays d = some (some (t, full)) → full.drop c = bs →
    ∃ w', World.addViews d w bs c = .ok w' ∧ Inv w' ∧ w'.arrays = w.arrays ∧ w'.mem = w.mem ∧
      w'.nextArray = w.nextArray ∧ (∀ v < w.nextView, w'.views v = w.views v) ∧
      ∀ (k b : Nat), bs[k]? = some b → w'.views (w.nextView + k) = some ⟨b, (w.mem.vals b).length, d, c + k⟩
  | [], _, w, hw, _, _ => ⟨w, rfl, hw, rfl, rfl, rfl, fun _ _ => rfl, by simp⟩
  | b :: bs, c, w, hw, hd, hfull => by
    have hc : full[c]? = some b := by rw [← List.head?_drop, hfull]; rfl
    obtain ⟨w1, h1, i1, a1, m1, n1, v1, vs1⟩ := addView_ok hw hd hc
    obtain ⟨w', h2, i2, a2, m2, n2, old, new⟩ := addViews_ok full bs (c + 1) i1 (by rw [a1]; exact hd)
      (by rw [← List.tail_drop, hfull]; rfl)
    refine ⟨w', by rw [World.addViews, h1]; exact h2, i2, a2.trans a1, m2.trans m1, n2.trans n1, fun v hv => ?_,
      fun k b' hk => ?_⟩
    · rw [old v (by omega), vs1, Function.update_of_ne (by omega)]
    · cases k with
      | zero =>
        obtain rfl : b = b' := by simpa using hk
        rw [old _ (by omega), vs1]
        simp
      | succ k =>
        have := new k b' (by simpa using hk)
        rw [v1, m1] at this
        rw [show w.nextView + (k + 1) = w.nextView + 1 + k by omega, this]
        congr 2
        omega

theorem iterate_ok {γ : Type} (t : Elt) (xs : List γ) : ∀ (fuel i : Nat), i ≤ xs.length → xs.length < fuel + i →
    iterate (some (t, xs)) xs.length fuel i = .ok (xs.drop i)
  | 0, i, h1, h2 => by omega
  | fuel + 1, i, h1, h2 => by
    rw [iterate]
    split
    · rename_i e
      rw [e, List.drop_length]
    · rw [elem]
      simp only [List.getElem?_eq_getElem (show i < xs.length by omega), Call.bind]
      rw [iterate_ok t xs fuel (i + 1) (by omega) (by omega)]
      simp only
      rw [List.drop_eq_getElem_cons (show i < xs.length by omega)]

theorem listOf_ok {γ : Type} (t : Elt) (xs : List γ) : listOf (xs.length + 1) (some (t, xs)) = .ok xs := by
  rw [listOf, size, Call.bind, iterate_ok t xs _ 0 (by omega) (by omega), List.drop_zero]

theorem copyLoop_mem {τ : Type} (a : List τ) (step : Int) : ∀ (count : Nat) (begin : Int) (out : List τ),
    copyLoop a step count begin = .ok out → ∀ x ∈ out, x ∈ a
  | 0, _, out, h, x, hx => by
    rw [copyLoop] at h
    simp only [Call.ok.injEq] at h
    subst h
    simp at hx
  | count + 1, begin, out, h, x, hx => by
    rw [copyLoop] at h
    cases hr : readAt a begin with
    | none => rw [hr] at h; simp at h
    | some y =>
      rw [hr] at h
      simp only at h
      cases hc : copyLoop a step count (toU64 (begin + step)) with
      | ok rest =>
        rw [hc] at h
        simp only [Call.bind, Call.ok.injEq] at h
        subst h
        rcases List.mem_cons.1 hx with rfl | hx
        · unfold readAt at hr
          split at hr
          · exact List.mem_of_getElem? hr
          · simp at hr
        · exact copyLoop_mem a step count _ _ hc x hx
      | _ => rw [hc] at h; simp [Call.bind] at h

theorem getslice_mem {τ : Type} {a : List τ} {start stop step : Option Int} {out : List τ}
    (h : getslice a start stop step = .ok out) : ∀ x ∈ out, x ∈ a := by
  unfold getslice at h
  cases hu : sliceUnpack start stop step with
  | ok y =>
    rw [hu] at h
    exact copyLoop_mem _ _ _ _ _ h
  | _ => rw [hu] at h; simp [Call.bind] at h

/-- A slice succeeds or raises. -/
theorem getslice_safe {τ : Type} (a : List τ) (hn : a.length < 2 ^ 63) (start stop step : Option Int) :
    getslice a start stop step = .throws ∨ ∃ out, getslice a start stop step = .ok out := by
  have key : ∀ s : Int, getslice a start stop (some s) = .throws ∨ ∃ out, getslice a start stop (some s) = .ok out := by
    intro s
    by_cases h : s = 0
    · subst h
      exact .inl (Props.c36_slice_step a start stop).2
    · obtain ⟨xs, out, h1, -⟩ := Props.c36_slice a hn start stop s h
      exact .inr ⟨out, h1⟩
  cases step with
  | none => rw [(Props.c36_slice_step a start stop).1]; exact key 1
  | some s => exact key s

section Steps
variable (extra : Nat → Nat) {w : World β} (hw : Inv w)
include hw

theorem step_new (t : Elt) : ∃ w', step extra w (.new (some t)) = .ok w' ∧ Inv w' ∧ w'.views = w.views ∧
    contents w' w.nextArray = some (t, []) ∧ ∀ d, d ≠ w.nextArray → contents w' d = contents w d := by
  obtain ⟨h1, h2, h3⟩ := hw.install (.inr ⟨rfl, rfl⟩) (m' := w.mem) (bs' := [])
    ⟨hw.fresh, le_rfl, by simp, by simp, by simp, fun _ _ _ => rfl, by simp⟩ t (Nat.le_succ _) (Nat.lt_succ_self _) rfl
  exact ⟨_, rfl, h1, rfl, h2, h3⟩

theorem step_search (t : Elt) (res : List (List β)) : ∃ w', step extra w (.search t res) = .ok w' ∧ Inv w' ∧
    w'.views = w.views ∧
    contents w' w.nextArray = some (t, res) ∧ ∀ d, d ≠ w.nextArray → contents w' d = contents w d := by
  obtain ⟨m', bs', h1, h2, h3⟩ := searchInto_ok extra hw.fresh t (bs := []) (by simp) (by simp) res
  obtain ⟨k1, k2, k3⟩ := hw.install (.inr ⟨rfl, rfl⟩) h2 t (Nat.le_succ _) (Nat.lt_succ_self _) rfl
  refine ⟨w.addArray m' (some (t, bs')), ?_, k1, rfl, ?_, k3⟩
  · rw [step, ofVector, h1]
    rfl
  · rw [← h3]; exact k2

theorem lt_of_array {d : Nat} {a : Impl Nat} (h : w.arrays d = some a) : d < w.nextArray := by
  by_contra hd
  rw [hw.freshArray d (by omega)] at h
  simp at h

theorem step_searchInto {d : Nat} {t : Elt} {xs : List (List β)} (hd : contents w d = some (t, xs)) (res : List (List β)) :
    ∃ w', step extra w (.searchInto d t res) = .ok w' ∧ Inv w' ∧ w'.views = w.views ∧
    contents w' d = some (t, res) ∧ ∀ d', d' ≠ d → contents w' d' = contents w d' := by
  obtain ⟨bs, ha, -⟩ := Inv.of_contents hd
  obtain ⟨m', bs', h1, h2, h3⟩ := searchInto_ok extra hw.fresh t (hw.live _ _ _ ha) (hw.nodup _ _ _ ha) res
  obtain ⟨k1, k2, k3⟩ := hw.install (.inl ⟨t, ha⟩) h2 t le_rfl (lt_of_array hw ha) rfl
  refine ⟨{ w with mem := m', arrays := Function.update w.arrays d (some (some (t, bs'))) }, ?_, k1, rfl, ?_, k3⟩
  · simp only [step, ha, h1, Call.bind]
  · rw [← h3]; exact k2

omit hw in
theorem step_searchInto_other {d : Nat} {t t' : Elt} {xs : List (List β)} (hd : contents w d = some (t, xs)) (ht : t ≠ t')
    (res : List (List β)) : step extra w (.searchInto d t' res) = .throws := by
  obtain ⟨bs, ha, -⟩ := Inv.of_contents hd
  simp [step, ha, searchInto, dtype, Call.bind, ht]

theorem step_slice {d : Nat} {t : Elt} {bs cs : List Nat} (ha : w.arrays d = some (some (t, bs)))
    {start stop st : Option Int} (hs : getslice bs start stop st = .ok cs) :
    ∃ w', step extra w (.slice d start stop st) = .ok w' ∧ Inv w' ∧ w'.views = w.views ∧
    contents w' w.nextArray = some (t, cs.map w.mem.vals) ∧ ∀ d', d' ≠ w.nextArray → contents w' d' = contents w d' := by
  obtain ⟨m', bs', h1, h2, h3⟩ := copyCells_ok w.mem cs hw.fresh
    (fun b hb => hw.live _ _ _ ha b (getslice_mem hs b hb))
  obtain ⟨k1, k2, k3⟩ := hw.install (.inr ⟨rfl, rfl⟩) h2 t (Nat.le_succ _) (Nat.lt_succ_self _) rfl
  refine ⟨w.addArray m' (some (t, bs')), ?_, k1, rfl, ?_, k3⟩
  · simp only [step, ha, hs, h1, Call.bind, ofVector]
  · rw [← h3]; exact k2

theorem step_write {v j : Nat} {x : β} {w' : World β} (h : step extra w (.write v j x) = .ok w') :
    Inv w' ∧ w'.views = w.views ∧ ∃ view t xs l, w.views v = some view ∧ j < view.len ∧
      contents w view.darray = some (t, xs) ∧ xs[view.cell]? = some l ∧
      contents w' view.darray = some (t, xs.set view.cell (l.set j x)) ∧
      ∀ d, d ≠ view.darray → contents w' d = contents w d := by
  cases hv : w.views v with
  | none => simp [step, hv] at h
  | some view =>
    simp only [step, hv] at h
    split at h
    swap
    · simp at h
    rename_i hj
    cases hb : w.mem.blocks view.block with
    | none => rw [hb] at h; simp at h
    | some blk =>
      rw [hb] at h
      simp only [Call.ok.injEq] at h
      obtain ⟨h1, h2⟩ := hw.view v view hv
      obtain ⟨t, bs, ha, hc⟩ := h2 ⟨blk, hb⟩
      have hlive : ∀ b, (⟨Function.update w.mem.blocks view.block (some ⟨blk.cap, blk.vals.set j x⟩), w.mem.next⟩ : Mem β).Live b
          ↔ w.mem.Live b := by
        intro b
        by_cases e : b = view.block
        · subst e
          exact ⟨fun _ => ⟨blk, hb⟩, fun _ => ⟨⟨blk.cap, blk.vals.set j x⟩, by simp⟩⟩
        · exact Mem.live_congr (by simp [Function.update_of_ne e])
      have hmem := List.mem_of_getElem? hc
      have hother : ∀ d t' bs', d ≠ view.darray → w.arrays d = some (some (t', bs')) → view.block ∉ bs' :=
        fun d t' bs' hne h => hw.disjoint _ _ _ _ _ _ (Ne.symm hne) ha h _ hmem
      subst h
      refine ⟨⟨hw.notNull, fun d t' bs' h b hb' => (hlive b).2 (hw.live d t' bs' h b hb'), hw.nodup, hw.disjoint,
        fun b hb' => ?_, hw.freshArray, fun v' x' hx' => ⟨(hw.view v' x' hx').1, fun hl =>
          (hw.view v' x' hx').2 ((hlive _).1 hl)⟩⟩, rfl, view, t, bs.map w.mem.vals, w.mem.vals view.block, rfl, hj,
        contents_some w ha, by rw [List.getElem?_map, hc]; rfl, ?_, fun d hne => ?_⟩
      · show Function.update w.mem.blocks view.block _ b = none
        have : w.mem.next ≤ b := hb'
        rw [Function.update_of_ne (by omega)]
        exact hw.fresh b hb'
      · refine Eq.trans (contents_some _ (t := t) (bs := bs) ?_) ?_
        · exact ha
        congr 2
        have hn := hw.nodup _ _ _ ha
        refine List.ext_getElem (by simp) fun k hk1 hk2 => ?_
        rw [List.getElem_map, List.getElem_set]
        have hk : k < bs.length := by simpa using hk1
        obtain ⟨hcl, hce⟩ := List.getElem?_eq_some_iff.1 hc
        split
        · rename_i e
          subst e
          rw [hce]
          simp [Mem.vals, hb]
        · rename_i e
          rw [List.getElem_map]
          refine Mem.vals_congr ?_
          show Function.update w.mem.blocks view.block _ _ = _
          rw [Function.update_of_ne fun e' => e ((hn.getElem_inj_iff).1 (hce.trans e'.symm))]
      · refine contents_congr rfl fun t' bs' h b hb' => ?_
        show Function.update w.mem.blocks view.block _ b = _
        rw [Function.update_of_ne (by rintro rfl; exact hother d t' bs' hne h hb')]

theorem step_del {d : Nat} {t : Elt} {xs : List (List β)} (hd : contents w d = some (t, xs)) :
    ∃ w', step extra w (.del d) = .ok w' ∧ Inv w' ∧ w'.views = w.views ∧ contents w' d = none ∧
      ∀ d', d' ≠ d → contents w' d' = contents w d' := by
  obtain ⟨bs, ha, -⟩ := Inv.of_contents hd
  obtain ⟨f1, f2, f3⟩ := freeAll_blocks bs w.mem
  refine ⟨{ w with mem := bs.foldl Mem.free w.mem, arrays := Function.update w.arrays d none }, ?_,
    ⟨fun d' => ?_, fun d' t' bs' h b hb => ?_, fun d' t' bs' h => ?_, fun d1 d2 t1 t2 bs1 bs2 hne h1 h2 => ?_,
      fun b hb => ?_, fun d' hd' => ?_, fun v x hx => ?_⟩, rfl, by simp [contents], fun d' hne => ?_⟩
  · simp only [step, ha]
    rfl
  · by_cases e : d' = d
    · subst e; simp
    · simp only [Function.update_of_ne e]; exact hw.notNull d'
  · by_cases e : d' = d
    · subst e; simp at h
    · simp only [Function.update_of_ne e] at h
      exact (Mem.live_congr (f3 b (hw.disjoint _ _ _ _ _ _ e h ha b hb))).2 (hw.live _ _ _ h b hb)
  · by_cases e : d' = d
    · subst e; simp at h
    · simp only [Function.update_of_ne e] at h
      exact hw.nodup _ _ _ h
  · by_cases e1 : d1 = d
    · subst e1; simp at h1
    · by_cases e2 : d2 = d
      · subst e2; simp at h2
      · simp only [Function.update_of_ne e1, Function.update_of_ne e2] at h1 h2
        exact hw.disjoint _ _ _ _ _ _ hne h1 h2
  · have hb' : w.mem.next ≤ b := by
      have : (bs.foldl Mem.free w.mem).next ≤ b := hb
      omega
    by_cases e : b ∈ bs
    · exact f2 b e
    · exact (f3 b e).trans (hw.fresh b hb')
  · show Function.update w.arrays d none d' = none
    by_cases e : d' = d
    · subst e; simp
    · rw [Function.update_of_ne e]; exact hw.freshArray d' hd'
  · obtain ⟨h1, h2⟩ := hw.view v x hx
    refine ⟨by show _ < (bs.foldl Mem.free w.mem).next; omega, fun hl => ?_⟩
    have hb : x.block ∉ bs := fun hb => by
      obtain ⟨blk, h⟩ := hl
      have : (bs.foldl Mem.free w.mem).blocks x.block = some blk := h
      rw [f2 _ hb] at this
      simp at this
    obtain ⟨t1, bs1, h3, h4⟩ := h2 ((Mem.live_congr (f3 _ hb)).1 hl)
    refine ⟨t1, bs1, ?_, h4⟩
    show Function.update w.arrays d none x.darray = _
    rw [Function.update_of_ne fun e => ?_]
    · exact h3
    · rw [e, ha] at h3
      simp only [Option.some.injEq, Prod.mk.injEq] at h3
      exact hb (h3.2 ▸ List.mem_of_getElem? h4)
  · refine contents_congr (by simp [Function.update_of_ne hne]) fun t' bs' h b hb => ?_
    exact f3 b (hw.disjoint _ _ _ _ _ _ hne h ha b hb)

end Steps

end Pico.Darr
