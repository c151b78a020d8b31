import Verif.SpecTreeObj
import Verif.Proof.Exhausted
import Mathlib.Data.List.ProdSigma
import Mathlib.Data.List.Dedup

/-!
# Invariants for objects that are moved
-/

namespace Pico

open Spec

variable {α : Type} {d : Nat} {β S : Type}

/-- All nodes in allocated memory. -/
def Heap.slots (h : Heap) (cs : Nat) : List Ptr := h.live.dedup ×ˢ List.range cs

theorem Heap.mem_slots {h : Heap} {cs : Nat} {q : Ptr} : q ∈ h.slots cs ↔ q.1 ∈ h.live ∧ q.2 < cs := by
  obtain ⟨x, i⟩ := q
  simp [Heap.slots]

theorem Heap.slots_ok (h : Heap) (cs : Nat) : AllocOk cs h (.new cs) (h.slots cs) where
  index := le_rfl
  chunk h := absurd h (lt_irrefl _)
  live _ hp := Heap.mem_slots.1 hp
  below _ _ h := absurd h (lt_irrefl _)
  nodup := (List.nodup_dedup _).product List.nodup_range

/-- How an object of the given state is stored; `O` are the addresses it owns. -/
def Good (cs : Nat) (h : Heap) (node : Ptr → Option (Node β)) :
    Has α d β S → Option (TreeObj α d S) → List Nat → Prop
  | .absent, t, O => t = none ∧ O = []
  | .moved, t, O => ∃ o, t = some o ∧ O = [] ∧ o.alloc.head = none ∧ o.indicesMem = none ∧ o.boxMem = none
  | .holds D sp, t, O => ∃ o L f, t = some o ∧ O = L ++ (o.boxMem.toList ++ o.indicesMem.toList) ∧
      Chain h o.alloc.head L ∧ Repr node o.root D.root f ∧ f.Nodup ∧ (∀ q ∈ f, q.1 ∈ L ∧ q.2 < cs) ∧
      o.indices = D.indices ∧ o.box = some D.rootBox ∧ o.space = sp

theorem Good.congr {cs : Nat} {h h' : Heap} {node node' : Ptr → Option (Node β)} {st : Has α d β S}
    {t : Option (TreeObj α d S)} {O : List Nat} (g : Good cs h node st t O) (hl : ∀ x ∈ O, x ∈ h'.live)
    (hp : ∀ x ∈ O, h'.prev x = h.prev x) (hn : ∀ q : Ptr, q.1 ∈ O → q.2 < cs → node' q = node q) :
    Good cs h' node' st t O := by
  cases st with
  | absent => exact g
  | moved => exact g
  | holds D sp =>
    obtain ⟨o, L, f, rfl, rfl, hc, hr, hf, hq, he⟩ := g
    have hL : ∀ x ∈ L, x ∈ L ++ (o.boxMem.toList ++ o.indicesMem.toList) := fun x hx => List.mem_append_left _ hx
    exact ⟨o, L, f, rfl, rfl, hc.congr (fun x hx => hl x (hL x hx)) fun x hx => hp x (hL x hx),
      hr.congr fun q hqf => hn q (hL _ (hq q hqf).1) (hq q hqf).2, hf, hq, he⟩

/-- An object that exists: its chunks and vectors. -/
theorem Good.parts {cs : Nat} {h : Heap} {node : Ptr → Option (Node β)} {st : Has α d β S}
    {t : Option (TreeObj α d S)} {O : List Nat} (g : Good cs h node st t O) (hs : st ≠ .absent) :
    ∃ o L, t = some o ∧ O = L ++ (o.boxMem.toList ++ o.indicesMem.toList) ∧ Chain h o.alloc.head L := by
  cases st with
  | absent => exact absurd rfl hs
  | moved =>
    obtain ⟨o, rfl, rfl, h1, h2, h3⟩ := g
    refine ⟨o, [], rfl, by simp [h2, h3], ?_⟩
    rw [h1]
    exact .nil
  | holds D sp =>
    obtain ⟨o, L, f, rfl, rfl, hc, -⟩ := g
    exact ⟨o, L, rfl, rfl, hc⟩

/-- The invariant; `O a` are the addresses the object `a` owns. -/
structure Inv (cs : Nat) (w : World α d β S) (st : Nat → Has α d β S) (lost : List Nat) (O : Nat → List Nat) :
    Prop where
  good : ∀ a, Good cs w.heap w.node (st a) (w.trees a) (O a)
  nodup : ∀ a, (O a).Nodup
  apart : ∀ a b, a ≠ b → ∀ x ∈ O a, x ∉ O b
  live : ∀ x, x ∈ w.heap.live ↔ x ∈ lost ∨ ∃ a, x ∈ O a
  lost : ∀ x ∈ lost, ∀ a, x ∉ O a

theorem inv_empty (cs : Nat) : Inv cs (.empty : World α d β S) (fun _ => .absent) [] fun _ => [] where
  good _ := ⟨rfl, rfl⟩
  nodup _ := List.nodup_nil
  apart := by simp
  live := by simp [World.empty, Heap.empty]
  lost := by simp

section
variable {cs : Nat} {w : World α d β S} {st : Nat → Has α d β S} {lost : List Nat} {O : Nat → List Nat}

/-- A new tree. -/
theorem Inv.construct (i : Inv cs w st lost O) {a : Nat} (ha : st a = .absent) {D : TreeData α d β} {space : S}
    {u : TreeMem × List Nat × Box α d} {s : NodeHeap β} (h1 : D.indices = u.2.1) (h2 : D.rootBox = u.2.2)
    (h : Held cs w.heap w.node (w.heap.slots cs) u.1 D.root s) :
    ∃ O', Inv cs ⟨s.heap, s.node, Function.update w.trees a (some (.ofMem space s.obj u))⟩
      (Function.update st a (.holds D space)) lost O' := by
  obtain ⟨f, L, b, m⟩ := h
  have hOa : O a = [] := by
    have := i.good a
    rw [ha] at this
    exact this.2
  have hold : ∀ c, ∀ x ∈ O c, x ∈ w.heap.live := fun c x hx => (i.live x).2 (.inr ⟨c, hx⟩)
  have hnew : ∀ x ∈ L ++ (u.1.box.toList ++ (u.1.indices.toList ++ [])), x ∉ w.heap.live := m.apart
  refine ⟨Function.update O a (L ++ (u.1.box.toList ++ (u.1.indices.toList ++ []))), fun c => ?_, fun c => ?_,
    fun c e hce x hx => ?_, fun x => ?_, fun x hx c => ?_⟩
  · by_cases hc : c = a
    · subst hc
      simp only [Function.update_self]
      refine ⟨_, L, f, rfl, by simp [TreeObj.ofMem], m.chain, b.repr, b.nodup, fun q hq => ?_, h1.symm,
        by rw [h2]; rfl, rfl⟩
      have hq1 := m.alloc.live q (by simp [hq])
      have hq2 : q.1 ∉ w.heap.live := fun hl => b.fresh q hq (Heap.mem_slots.2 ⟨hl, hq1.2⟩)
      exact ⟨(m.place q (by simp [hq])).resolve_left hq2, hq1.2⟩
    · simp only [Function.update_of_ne hc]
      refine (i.good c).congr (fun x hx => (m.live x).2 (.inl (hold c x hx))) (fun x hx => m.prev x (hold c x hx)) ?_
      exact fun q hq1 hq2 => b.same q (Heap.mem_slots.2 ⟨hold c _ hq1, hq2⟩)
  · by_cases hc : c = a
    · subst hc
      rw [Function.update_self]
      exact m.nodup
    · rw [Function.update_of_ne hc]
      exact i.nodup c
  · by_cases hc : c = a
    · subst hc
      rw [Function.update_self] at hx
      rw [Function.update_of_ne (Ne.symm hce)]
      exact fun h => hnew x hx (hold e x h)
    · rw [Function.update_of_ne hc] at hx
      by_cases he : e = a
      · subst he
        rw [Function.update_self]
        exact fun h => hnew x h (hold c x hx)
      · rw [Function.update_of_ne he]
        exact i.apart c e hce x hx
  · rw [m.live x, i.live x]
    have : (∃ c, x ∈ Function.update O a (L ++ (u.1.box.toList ++ (u.1.indices.toList ++ []))) c) ↔
        (∃ c, x ∈ O c) ∨ x ∈ L ++ (u.1.box.toList ++ (u.1.indices.toList ++ [])) := by
      constructor
      · rintro ⟨c, hc⟩
        by_cases e : c = a
        · subst e
          rw [Function.update_self] at hc
          exact .inr hc
        · rw [Function.update_of_ne e] at hc
          exact .inl ⟨c, hc⟩
      · rintro (⟨c, hc⟩ | h)
        · refine ⟨c, ?_⟩
          have e : c ≠ a := by
            rintro rfl
            rw [hOa] at hc
            exact absurd hc (by simp)
          rwa [Function.update_of_ne e]
        · exact ⟨a, by rwa [Function.update_self]⟩
    rw [this, ← List.mem_append (s := L)]
    tauto
  · by_cases hc : c = a
    · subst hc
      rw [Function.update_self]
      exact fun h => hnew x h ((i.live x).2 (.inl hx))
    · rw [Function.update_of_ne hc]
      exact i.lost x hx c

/-- An exception. -/
theorem Inv.thrown (i : Inv cs w st lost O) {s : NodeHeap β} (r : Restored w.heap w.node (w.heap.slots cs) s) :
    Inv cs ⟨s.heap, s.node, w.trees⟩ st lost O where
  good c := by
    have hold : ∀ x ∈ O c, x ∈ w.heap.live := fun x hx => (i.live x).2 (.inr ⟨c, hx⟩)
    exact (i.good c).congr (fun x hx => (r.live x).2 (hold x hx)) (fun x hx => r.prev x (hold x hx))
      fun q h1 h2 => r.node q (Heap.mem_slots.2 ⟨hold _ h1, h2⟩)
  nodup := i.nodup
  apart := i.apart
  live x := (r.live x).trans (i.live x)
  lost := i.lost

theorem freeVec_ok {v : Option Nat} {s : NodeHeap β} (h : ∀ x ∈ v.toList, x ∈ s.heap.live) :
    ∃ s', freeVec v s = .ok s' ∧ s'.node = s.node ∧ s'.heap.prev = s.heap.prev ∧
      ∀ x, x ∈ s'.heap.live ↔ x ∈ s.heap.live ∧ x ∉ v.toList := by
  cases v with
  | none => exact ⟨s, rfl, rfl, rfl, by simp⟩
  | some a =>
    refine ⟨_, if_pos (h a (by simp)), rfl, rfl, fun x => ?_⟩
    simp [Heap.delete]

theorem World.freeVec_ok {v : Option Nat} {w : World α d β S} (h : ∀ x ∈ v.toList, x ∈ w.heap.live) :
    ∃ h', w.freeVec v = .ok ⟨h', w.node, w.trees⟩ ∧ h'.prev = w.heap.prev ∧
      ∀ x, x ∈ h'.live ↔ x ∈ w.heap.live ∧ x ∉ v.toList := by
  cases v with
  | none => exact ⟨w.heap, rfl, rfl, by simp⟩
  | some a =>
    refine ⟨_, if_pos (h a (by simp)), rfl, fun x => ?_⟩
    simp [Heap.delete]

/-- The destructor frees what the object owns. -/
theorem freeTree_ok {h : Heap} {node : Ptr → Option (Node β)} {o : Obj} {T : TreeMem} {L : List Nat}
    (hc : Chain h o.head L) (hn : (L ++ (T.box.toList ++ T.indices.toList)).Nodup)
    (hl : ∀ x ∈ L ++ (T.box.toList ++ T.indices.toList), x ∈ h.live) :
    ∃ s', freeTree T ⟨h, o, node⟩ = .ok s' ∧ s'.node = node ∧ s'.heap.prev = h.prev ∧
      ∀ x, x ∈ s'.heap.live ↔ x ∈ h.live ∧ x ∉ L ++ (T.box.toList ++ T.indices.toList) := by
  have hn1 := List.nodup_append'.1 hn
  have hn2 := List.nodup_append'.1 hn1.2.1
  have hlen : L.length ≤ h.live.length :=
    (List.subperm_of_subset hn1.1 fun x hx => hc.mem_live x hx).length_le
  obtain ⟨h1, e1, l1, p1⟩ := Heap.release_ok hc hn1.1 (Nat.le_succ_of_le hlen)
  have m1 : ∀ x, x ∈ h1.live ↔ x ∈ h.live ∧ x ∉ L := fun x => by rw [l1]; simp
  obtain ⟨s2, e2, n2, p2, l2⟩ := freeVec_ok (v := T.box) (s := ⟨h1, { o with head := none }, node⟩) fun x hx =>
    (m1 x).2 ⟨hl x (by simp [hx]), fun hL => hn1.2.2 hL (by simp [hx])⟩
  obtain ⟨s3, e3, n3, p3, l3⟩ := freeVec_ok (v := T.indices) (s := s2) fun x hx =>
    (l2 x).2 ⟨(m1 x).2 ⟨hl x (by simp [hx]), fun hL => hn1.2.2 hL (by simp [hx])⟩, fun hb => hn2.2.2 hb hx⟩
  refine ⟨s3, ?_, n3.trans n2, p3.trans (p2.trans p1), fun x => ?_⟩
  · rw [freeTree, freeNodes]
    simp only [e1, Outcome.bind, e2, e3]
  · rw [l3, l2, m1]
    simp only [List.mem_append, not_or]
    tauto

theorem chunks_eq_chain {h : Heap} {o : Option Nat} {L : List Nat} (c : Chain h o L) {fuel : Nat}
    (hf : L.length ≤ fuel) : h.chunks fuel o = L := by
  induction c generalizing fuel with
  | nil => cases fuel <;> rfl
  | cons _ _ ih =>
    obtain ⟨fuel, rfl⟩ : ∃ f, fuel = f + 1 := ⟨fuel - 1, by simp at hf; omega⟩
    simp only [List.length_cons] at hf
    rw [Heap.chunks, ih (by omega)]

theorem Inv.destroy (i : Inv cs w st lost O) {a : Nat} (ha : st a ≠ .absent) :
    ∃ o s, w.trees a = some o ∧
      freeTree ⟨o.indicesMem, o.boxMem, o.root⟩ ⟨w.heap, o.alloc, w.node⟩ = .ok s ∧ s.node = w.node ∧
      (∀ x, x ∈ s.heap.live ↔ x ∈ w.heap.live ∧ x ∉ O a) ∧
      Inv cs ⟨s.heap, s.node, Function.update w.trees a none⟩ (Function.update st a .absent) lost
        (Function.update O a []) := by
  obtain ⟨o, L, ho, hO, hc⟩ := (i.good a).parts ha
  have hold : ∀ c, ∀ x ∈ O c, x ∈ w.heap.live := fun c x hx => (i.live x).2 (.inr ⟨c, hx⟩)
  obtain ⟨s, e, hn, hp, hl⟩ := freeTree_ok (node := w.node) (T := ⟨o.indicesMem, o.boxMem, o.root⟩) hc
    (by rw [← hO]; exact i.nodup a) (by rw [← hO]; exact hold a)
  dsimp only at hl
  rw [← hO] at hl
  refine ⟨o, s, ho, e, hn, hl, fun c => ?_, fun c => ?_, fun c b hcb x hx => ?_, fun x => ?_, fun x hx c => ?_⟩
  · by_cases h : c = a
    · subst h
      simp only [Function.update_self]
      exact ⟨rfl, rfl⟩
    · simp only [Function.update_of_ne h]
      exact (i.good c).congr (fun x hx => (hl x).2 ⟨hold c x hx, i.apart c a h x hx⟩) (fun x _ => by rw [hp])
        fun q _ _ => by rw [hn]
  · by_cases h : c = a
    · subst h
      simp
    · rw [Function.update_of_ne h]
      exact i.nodup c
  · by_cases h : c = a
    · subst h
      simp at hx
    · rw [Function.update_of_ne h] at hx
      by_cases h' : b = a
      · subst h'
        simp
      · rw [Function.update_of_ne h']
        exact i.apart c b hcb x hx
  · rw [hl, i.live x]
    constructor
    · rintro ⟨h | ⟨c, h⟩, h'⟩
      · exact .inl h
      · have hca : c ≠ a := fun e => h' (by rw [← e]; exact h)
        refine .inr ⟨c, ?_⟩
        rwa [Function.update_of_ne hca]
    · rintro (h | ⟨c, h⟩)
      · exact ⟨.inl h, i.lost x h a⟩
      · by_cases h' : c = a
        · subst h'
          simp at h
        · rw [Function.update_of_ne h'] at h
          exact ⟨.inr ⟨c, h⟩, i.apart c a h' x h⟩
  · by_cases h : c = a
    · subst h
      simp
    · rw [Function.update_of_ne h]
      exact i.lost x hx c

/-- The contents of `b` go to `a`: of what `a` owned, the chunks `L` are lost and the rest was freed. -/
theorem Inv.transfer (i : Inv cs w st lost O) {a b : Nat} (hab : a ≠ b) (hb : st b ≠ .absent) {ob : TreeObj α d S}
    (hob : w.trees b = some ob) {L F : List Nat} (hO : O a = L ++ F) {h' : Heap} (hp : h'.prev = w.heap.prev)
    (hl : ∀ x, x ∈ h'.live ↔ x ∈ w.heap.live ∧ x ∉ F) {o' : TreeObj α d S} (h1 : o'.alloc.head = none)
    (h2 : o'.indicesMem = none) (h3 : o'.boxMem = none) :
    Inv cs ⟨h', w.node, Function.update (Function.update w.trees b (some o')) a (some ob)⟩
      (Function.update (Function.update st b .moved) a (st b)) (L ++ lost)
      (Function.update (Function.update O b []) a (O b)) := by
  have hold : ∀ c, ∀ x ∈ O c, x ∈ w.heap.live := fun c x hx => (i.live x).2 (.inr ⟨c, hx⟩)
  have hF : ∀ x ∈ F, x ∈ O a := fun x hx => by rw [hO]; simp [hx]
  have hL : ∀ x ∈ L, x ∈ O a := fun x hx => by rw [hO]; simp [hx]
  have keep : ∀ c, c ≠ a → Good cs h' w.node (st c) (w.trees c) (O c) := fun c hca =>
    (i.good c).congr (fun x hx => (hl x).2 ⟨hold c x hx, fun hf => i.apart c a hca x hx (hF x hf)⟩)
      (fun x _ => by rw [hp]) fun _ _ _ => rfl
  have hLF : ∀ x ∈ L, x ∉ F := fun x h1 h2 => by
    have := i.nodup a
    rw [hO] at this
    exact (List.nodup_append'.1 this).2.2 h1 h2
  -- where an address is now
  have val : ∀ c x, x ∈ Function.update (Function.update O b []) a (O b) c ↔
      (c = a ∧ x ∈ O b) ∨ (c ≠ a ∧ c ≠ b ∧ x ∈ O c) := by
    intro c x
    by_cases h : c = a
    · subst h
      simp
    · rw [Function.update_of_ne h]
      by_cases h' : c = b
      · subst h'
        simp [h]
      · rw [Function.update_of_ne h']
        simp [h, h']
  refine ⟨fun c => ?_, fun c => ?_, fun c e hce x hx => ?_, fun x => ?_, fun x hx c => ?_⟩
  · by_cases h : c = a
    · subst h
      simp only [Function.update_self]
      rw [← hob]
      exact keep b (Ne.symm hab)
    · simp only [Function.update_of_ne h]
      by_cases h' : c = b
      · subst h'
        simp only [Function.update_self]
        exact ⟨o', rfl, rfl, h1, h2, h3⟩
      · simp only [Function.update_of_ne h']
        exact keep c h
  · by_cases h : c = a
    · subst h
      simp only [Function.update_self]
      exact i.nodup b
    · rw [Function.update_of_ne h]
      by_cases h' : c = b
      · subst h'
        simp
      · rw [Function.update_of_ne h']
        exact i.nodup c
  · rw [val] at hx ⊢
    rintro (⟨rfl, h⟩ | ⟨he1, he2, h⟩)
    · rcases hx with ⟨rfl, _⟩ | ⟨_, hc2, hx⟩
      · exact hce rfl
      · exact i.apart c b hc2 x hx h
    · rcases hx with ⟨_, hx⟩ | ⟨_, hc2, hx⟩
      · exact i.apart b e (Ne.symm he2) x hx h
      · exact i.apart c e hce x hx h
  · rw [hl, i.live x, List.mem_append]
    constructor
    · rintro ⟨h | ⟨c, h⟩, hf⟩
      · exact .inl (.inr h)
      · by_cases hc : c = a
        · subst hc
          rw [hO, List.mem_append] at h
          exact .inl (.inl (h.resolve_right hf))
        · by_cases hc' : c = b
          · subst hc'
            exact .inr ⟨a, (val a x).2 (.inl ⟨rfl, h⟩)⟩
          · exact .inr ⟨c, (val c x).2 (.inr ⟨hc, hc', h⟩)⟩
    · rintro ((h | h) | ⟨c, h⟩)
      · exact ⟨.inr ⟨a, hL x h⟩, hLF x h⟩
      · exact ⟨.inl h, fun hf => i.lost x h a (hF x hf)⟩
      · rw [val] at h
        rcases h with ⟨_, h⟩ | ⟨hc, _, h⟩
        · exact ⟨.inr ⟨b, h⟩, fun hf => i.apart b a (Ne.symm hab) x h (hF x hf)⟩
        · exact ⟨.inr ⟨c, h⟩, fun hf => i.apart c a hc x h (hF x hf)⟩
  · rw [val]
    rw [List.mem_append] at hx
    rintro (⟨rfl, h⟩ | ⟨hc, _, h⟩)
    · rcases hx with hx | hx
      · exact i.apart c b hab x (hL x hx) h
      · exact i.lost x hx b h
    · rcases hx with hx | hx
      · exact i.apart c a hc x h (hL x hx)
      · exact i.lost x hx c h

/-- Move assignment to another object. -/
theorem World.moveAssign_ne {dyn : Bool} {left : S → S} {a b : Nat} (hab : a ≠ b) {oa ob : TreeObj α d S}
    (ha : w.trees a = some oa) (hb : w.trees b = some ob)
    (hl : ∀ x ∈ oa.boxMem.toList ++ oa.indicesMem.toList, x ∈ w.heap.live)
    (hn : (oa.boxMem.toList ++ oa.indicesMem.toList).Nodup) :
    ∃ h', w.moveAssign dyn left a b = .ok ⟨h', w.node,
        Function.update (Function.update w.trees b (some (ob.movedFrom dyn left))) a (some ob)⟩ ∧
      h'.prev = w.heap.prev ∧
      ∀ x, x ∈ h'.live ↔ x ∈ w.heap.live ∧ x ∉ oa.boxMem.toList ++ oa.indicesMem.toList := by
  have hn' := List.nodup_append'.1 hn
  unfold World.moveAssign
  rw [ha, hb]
  dsimp only
  obtain ⟨h1, e1, p1, l1⟩ := World.freeVec_ok (v := oa.indicesMem)
    (w := (w.edit a fun o => { o with space := ob.space }).edit b fun o => { o with space := left o.space })
    fun x hx => hl x (by simp [hx])
  simp only [World.edit] at p1 l1
  rw [e1]
  dsimp only [Outcome.bind]
  obtain ⟨h2, e2, p2, l2⟩ := World.freeVec_ok (v := oa.boxMem)
    (w := ((World.edit ⟨h1, w.node, ((w.edit a fun o => { o with space := ob.space }).edit b fun o =>
      { o with space := left o.space }).trees⟩ a fun o =>
        { o with indicesMem := ob.indicesMem, indices := ob.indices }).edit b fun o =>
          { o with indicesMem := none, indices := [] }))
    fun x hx => (l1 x).2 ⟨hl x (by simp [hx]), fun h => hn'.2.2 hx h⟩
  simp only [World.edit] at p2 l2
  have e2' := e2
  simp only [World.edit] at e2' ⊢
  rw [e2']
  refine ⟨h2, ?_, p2.trans p1, fun x => ?_⟩
  · simp only [Outcome.ok.injEq, World.mk.injEq, true_and]
    funext c
    by_cases hca : c = a
    · subst hca
      simp [Function.update_of_ne hab, Function.update_of_ne (Ne.symm hab), ha, hb]
    · by_cases hcb : c = b
      · subst hcb
        simp [Function.update_of_ne hab, Function.update_of_ne (Ne.symm hab), ha, hb, TreeObj.movedFrom]
      · simp [Function.update_of_ne hca, Function.update_of_ne hcb]
  · rw [l2, l1]
    simp only [List.mem_append, not_or]
    tauto

/-- Move assignment of an object to itself. -/
theorem World.moveAssign_self {dyn : Bool} {left : S → S} {a : Nat} {o : TreeObj α d S} (ha : w.trees a = some o)
    (hl : ∀ x ∈ o.boxMem.toList ++ o.indicesMem.toList, x ∈ w.heap.live)
    (hn : (o.boxMem.toList ++ o.indicesMem.toList).Nodup) :
    ∃ h', w.moveAssign dyn left a a = .ok ⟨h', w.node, Function.update w.trees a (some (o.movedFrom dyn left))⟩ ∧
      h'.prev = w.heap.prev ∧
      ∀ x, x ∈ h'.live ↔ x ∈ w.heap.live ∧ x ∉ o.boxMem.toList ++ o.indicesMem.toList := by
  have hn' := List.nodup_append'.1 hn
  unfold World.moveAssign
  rw [ha]
  dsimp only
  obtain ⟨h1, e1, p1, l1⟩ := World.freeVec_ok (v := o.indicesMem)
    (w := (w.edit a fun x => { x with space := o.space }).edit a fun x => { x with space := left x.space })
    fun x hx => hl x (by simp [hx])
  simp only [World.edit] at p1 l1
  rw [e1]
  dsimp only [Outcome.bind]
  obtain ⟨h2, e2, p2, l2⟩ := World.freeVec_ok (v := o.boxMem)
    (w := ((World.edit ⟨h1, w.node, ((w.edit a fun x => { x with space := o.space }).edit a fun x =>
      { x with space := left x.space }).trees⟩ a fun x =>
        { x with indicesMem := o.indicesMem, indices := o.indices }).edit a fun x =>
          { x with indicesMem := none, indices := [] }))
    fun x hx => (l1 x).2 ⟨hl x (by simp [hx]), fun h => hn'.2.2 hx h⟩
  simp only [World.edit] at p2 l2
  have e2' := e2
  simp only [World.edit] at e2' ⊢
  rw [e2']
  refine ⟨h2, ?_, p2.trans p1, fun x => ?_⟩
  · simp only [Outcome.ok.injEq, World.mk.injEq, true_and]
    funext c
    by_cases hca : c = a
    · subst hca
      simp [ha, TreeObj.movedFrom]
    · simp [Function.update_of_ne hca]
  · rw [l2, l1]
    simp only [List.mem_append, not_or]
    tauto

/-- The contents of `a` are gone: its chunks `L` are lost and the rest was freed. -/
theorem Inv.drop (i : Inv cs w st lost O) {a : Nat} {L F : List Nat} (hO : O a = L ++ F) {h' : Heap}
    (hp : h'.prev = w.heap.prev) (hl : ∀ x, x ∈ h'.live ↔ x ∈ w.heap.live ∧ x ∉ F) {o' : TreeObj α d S}
    (h1 : o'.alloc.head = none) (h2 : o'.indicesMem = none) (h3 : o'.boxMem = none) :
    Inv cs ⟨h', w.node, Function.update w.trees a (some o')⟩ (Function.update st a .moved) (L ++ lost)
      (Function.update O a []) := by
  have hold : ∀ c, ∀ x ∈ O c, x ∈ w.heap.live := fun c x hx => (i.live x).2 (.inr ⟨c, hx⟩)
  have hF : ∀ x ∈ F, x ∈ O a := fun x hx => by rw [hO]; simp [hx]
  have hL : ∀ x ∈ L, x ∈ O a := fun x hx => by rw [hO]; simp [hx]
  have hLF : ∀ x ∈ L, x ∉ F := fun x h1 h2 => by
    have := i.nodup a
    rw [hO] at this
    exact (List.nodup_append'.1 this).2.2 h1 h2
  have val : ∀ c x, x ∈ Function.update O a [] c ↔ c ≠ a ∧ x ∈ O c := by
    intro c x
    by_cases h : c = a
    · subst h
      simp
    · rw [Function.update_of_ne h]
      simp [h]
  refine ⟨fun c => ?_, fun c => ?_, fun c e hce x hx => ?_, fun x => ?_, fun x hx c => ?_⟩
  · by_cases h : c = a
    · subst h
      simp only [Function.update_self]
      exact ⟨o', rfl, rfl, h1, h2, h3⟩
    · simp only [Function.update_of_ne h]
      exact (i.good c).congr (fun x hx => (hl x).2 ⟨hold c x hx, fun hf => i.apart c a h x hx (hF x hf)⟩)
        (fun x _ => by rw [hp]) fun _ _ _ => rfl
  · by_cases h : c = a
    · subst h
      simp
    · rw [Function.update_of_ne h]
      exact i.nodup c
  · rw [val] at hx ⊢
    exact fun h => i.apart c e hce x hx.2 h.2
  · rw [hl, i.live x, List.mem_append]
    constructor
    · rintro ⟨h | ⟨c, h⟩, hf⟩
      · exact .inl (.inr h)
      · by_cases hc : c = a
        · subst hc
          rw [hO, List.mem_append] at h
          exact .inl (.inl (h.resolve_right hf))
        · exact .inr ⟨c, (val c x).2 ⟨hc, h⟩⟩
    · rintro ((h | h) | ⟨c, h⟩)
      · exact ⟨.inr ⟨a, hL x h⟩, hLF x h⟩
      · exact ⟨.inl h, fun hf => i.lost x h a (hF x hf)⟩
      · rw [val] at h
        exact ⟨.inr ⟨c, h.2⟩, fun hf => i.apart c a h.1 x h.2 (hF x hf)⟩
  · rw [val]
    rw [List.mem_append] at hx
    rintro ⟨hc, h⟩
    rcases hx with hx | hx
    · exact i.apart c a hc x h (hL x hx)
    · exact i.lost x hx c h

/-- The chunks of an object that exists. -/
theorem Inv.chunks (i : Inv cs w st lost O) {a : Nat} {o : TreeObj α d S} {L F : List Nat}
    (hO : O a = L ++ F) (hc : Chain w.heap o.alloc.head L) :
    w.heap.chunks (w.heap.live.length + 1) o.alloc.head = L := by
  refine chunks_eq_chain hc (Nat.le_succ_of_le ?_)
  have hn := i.nodup a
  rw [hO] at hn
  exact (List.subperm_of_subset (List.nodup_append'.1 hn).1 fun x hx => hc.mem_live x hx).length_le

end

section
variable [LinearOrder α] [Add α] [Sub α]
variable {M : Malloc} {fails : Nat → Nat → Bool} {cs : Nat} {dyn : Bool} {left : S → S} {P : Platform α}
  {branch : Codec β} {w : World α d β S} {st : Nat → Has α d β S} {lost : List Nat} {O : Nat → List Nat}

/-- Every operation keeps the invariant. -/
theorem Inv.step (hc : 0 < cs) (i : Inv cs w st lost O) {op : TreeOp α d β S} (ok : MayDo P branch st op) :
    ∃ w' t O', w.step M fails cs dyn left P branch op = .ok (w', t) ∧
      Inv cs w' (after P branch st t op) (losesChunks w op ++ lost) O' ∧
      (t = true → op.constructs = true ∧ Failed fails w.heap) := by
  have none_of : ∀ {a}, st a = .absent → w.trees a = none := by
    intro a ha
    have := i.good a
    rw [ha] at this
    exact this.1
  cases op with
  | build a space C n bounds fuel =>
    obtain ⟨ha, D, hD⟩ := ok
    have := buildTry_tracks_held (M := M) (fails := fails) (dyn := dyn) (C := C) (node := w.node) hc n bounds fuel
      (w.heap.slots_ok cs)
    simp only [World.step, none_of ha, losesChunks, List.nil_append, after, hD]
    rw [hD] at this
    cases he : buildTry M fails cs dyn C n bounds fuel w.heap w.node with
    | ub => rw [he] at this; exact this.elim
    | oof => rw [he] at this; exact this.elim
    | throws s =>
      rw [he] at this
      exact ⟨_, true, O, rfl, i.thrown this.1, fun _ => ⟨rfl, this.2⟩⟩
    | ok u s =>
      rw [he] at this
      obtain ⟨O', h⟩ := i.construct ha (space := space) this.1 this.2.1 this.2.2.1
      exact ⟨_, false, O', rfl, h, by simp⟩
  | load a space fuel bytes =>
    obtain ⟨ha, D, rest, hD⟩ := ok
    have := loadTry_tracks_held (M := M) (fails := fails) (dyn := dyn) (P := P) (branch := branch) (d := d)
      (node := w.node) hc fuel bytes (w.heap.slots_ok cs)
    simp only [World.step, none_of ha, losesChunks, List.nil_append, after, hD]
    rw [hD] at this
    cases he : loadTry M fails cs dyn P branch d fuel bytes w.heap w.node with
    | ub => rw [he] at this; exact this.elim
    | oof => rw [he] at this; exact this.elim
    | throws s =>
      rw [he] at this
      exact ⟨_, true, O, rfl, i.thrown this.1, fun _ => ⟨rfl, this.2⟩⟩
    | ok u s =>
      rw [he] at this
      obtain ⟨O', h⟩ := i.construct ha (space := space) this.2.1 this.2.2.1 this.2.2.2.1
      exact ⟨_, false, O', rfl, h, by simp⟩
  | moveConstruct a b =>
    obtain ⟨ha, hb⟩ := ok
    have hab : a ≠ b := by
      rintro rfl
      exact hb ha
    obtain ⟨ob, L, hob, -⟩ := (i.good b).parts hb
    have hOa : O a = [] ++ [] := by
      have := i.good a
      rw [ha] at this
      exact this.2
    simp only [World.step, none_of ha, hob, losesChunks, after]
    exact ⟨_, false, _, rfl, i.transfer hab hb hob hOa rfl (by simp) rfl rfl rfl, by simp⟩
  | moveAssign a b =>
    obtain ⟨ha, hb, hs⟩ := ok
    obtain ⟨oa, L, hoa, hO, hch⟩ := (i.good a).parts ha
    obtain ⟨ob, -, hob, -⟩ := (i.good b).parts hb
    have hF : ∀ x ∈ oa.boxMem.toList ++ oa.indicesMem.toList, x ∈ w.heap.live := fun x hx =>
      (i.live x).2 (.inr ⟨a, by rw [hO]; exact List.mem_append_right _ hx⟩)
    have hn := i.nodup a
    rw [hO] at hn
    have hn' := (List.nodup_append'.1 hn).2.1
    have hlost : losesChunks w (.moveAssign a b) = L := by
      simp only [losesChunks, hoa]
      exact i.chunks hO hch
    rw [hlost]
    simp only [World.step, after]
    by_cases hab : a = b
    · subst hab
      obtain ⟨h', e, hp, hl⟩ := World.moveAssign_self (dyn := dyn) (left := left) hoa hF hn'
      rw [e]
      refine ⟨_, false, Function.update O a [], rfl, ?_, by simp⟩
      rw [hs rfl, Function.update_idem]
      exact i.drop hO hp hl rfl rfl rfl
    · obtain ⟨h', e, hp, hl⟩ := World.moveAssign_ne (dyn := dyn) (left := left) hab hoa hob hF hn'
      rw [e]
      exact ⟨_, false, _, rfl, i.transfer hab hb hob hO hp hl rfl rfl rfl, by simp⟩
  | destroy a =>
    obtain ⟨o, s, ho, e, -, -, h⟩ := i.destroy ok
    simp only [World.step, ho, e, losesChunks, after, Outcome.bind]
    exact ⟨_, false, _, rfl, h, by simp⟩

/-- All reachable states satisfy the invariant. -/
theorem Reach.inv (hc : 0 < cs) (h : Reach M fails cs dyn left P branch w st lost) : ∃ O, Inv cs w st lost O := by
  induction h with
  | start => exact ⟨_, inv_empty cs⟩
  | step _ ok e ih =>
    obtain ⟨O, i⟩ := ih
    obtain ⟨w', t, O', e', i', -⟩ := i.step (M := M) (fails := fails) (dyn := dyn) (left := left) hc ok
    rw [e] at e'
    simp only [Outcome.ok.injEq, Prod.mk.injEq] at e'
    obtain ⟨rfl, rfl⟩ := e'
    exact ⟨O', i'⟩

end

end Pico
