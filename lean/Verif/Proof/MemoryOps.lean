import Verif.Proof.Memory
import Verif.SpecMemory
import Mathlib.Data.List.Perm.Subperm

/-!
# Programs with any number of allocators
-/

namespace Pico

open Spec

/-- `L a` is the list of chunks of allocator `a`. -/
structure MemInv (cs : Nat) (s : MemState) (st : Nat → Status) (own : List (Ptr × Nat))
    (L : Nat → List Nat) : Prop where
  chain : ∀ a o, s.objs a = some o → Chain s.heap o.head (L a)
  gone : ∀ a, s.objs a = none → L a = []
  nodup : ∀ a, (L a).Nodup
  disj : ∀ a b, a ≠ b → ∀ x ∈ L a, x ∉ L b
  live : ∀ a, ∀ x ∈ L a, x ∈ s.heap.live
  cover : ∀ x ∈ s.heap.live, ∃ a, x ∈ L a
  absent : ∀ a, st a = .absent ↔ s.objs a = .none
  empty : ∀ a o, st a = .empty → s.objs a = some o → o.head = .none ∧ o.index = cs
  active : ∀ a o, st a = .active → s.objs a = some o →
    ∃ c l, L a = c :: l ∧ o.chunk = some c ∧ o.index ≤ cs
  moved : ∀ a o, st a = .moved → s.objs a = some o → o.head = .none
  owned : ∀ x ∈ own, x.1.1 ∈ L x.2 ∧ x.1.2 < cs ∧
    ∀ o, s.objs x.2 = some o → o.chunk = some x.1.1 → x.1.2 < o.index
  ownNodup : (own.map Prod.fst).Nodup

theorem memInv_empty (cs : Nat) : MemInv cs .empty (fun _ => .absent) [] fun _ => [] where
  chain := by simp [MemState.empty]
  gone := by simp
  nodup := by simp
  disj := by simp
  live := by simp
  cover := by simp [MemState.empty, Heap.empty]
  absent := by simp [MemState.empty]
  empty := by simp
  active := by simp
  moved := by simp
  owned := by simp
  ownNodup := by simp

variable {M : Malloc} {cs : Nat} {s : MemState} {st : Nat → Status} {own : List (Ptr × Nat)}
  {L : Nat → List Nat}

/-- An owned pointer belongs to an object that exists. -/
theorem MemInv.owner_ne (h : MemInv cs s st own L) {x : Ptr × Nat} (hx : x ∈ own) {a : Nat}
    (ha : L a = []) : x.2 ≠ a := by
  rintro rfl
  have := (h.owned x hx).1
  rw [ha] at this
  exact absurd this (by simp)

theorem MemInv.nil_of_head (h : MemInv cs s st own L) {a : Nat} {o : Obj} (ho : s.objs a = some o)
    (hh : o.head = .none) : L a = [] := by
  have := h.chain a o ho
  rw [hh] at this
  exact this.head_none

theorem MemInv.construct (h : MemInv cs s st own L) {a : Nat} (ha : Allowed st (.construct a)) :
    ∃ s' r, s.step M cs (.construct a) = .ok (s', r) ∧
      MemInv cs s' (next st (.construct a)) (ownership own (.construct a) r) L := by
  have hn : s.objs a = .none := (h.absent a).1 ha
  refine ⟨⟨s.heap, Function.update s.objs a (some (.new cs))⟩, .none, by simp [MemState.step, hn], ?_⟩
  have hL := h.gone a hn
  exact {
    chain := fun b o hb => by
      by_cases e : b = a
      · subst e
        simp only [Function.update_self, Option.some.injEq] at hb
        subst hb
        rw [hL]
        exact .nil
      · simp only [Function.update_of_ne e] at hb
        exact h.chain b o hb
    gone := fun b hb => by
      by_cases e : b = a
      · subst e; exact hL
      · simp only [Function.update_of_ne e] at hb
        exact h.gone b hb
    nodup := h.nodup
    disj := h.disj
    live := h.live
    cover := h.cover
    absent := fun b => by
      by_cases e : b = a
      · subst e; simp [next]
      · simp only [next, Function.update_of_ne e]
        exact h.absent b
    empty := fun b o hb ho => by
      by_cases e : b = a
      · subst e
        simp only [Function.update_self, Option.some.injEq] at ho
        subst ho
        exact ⟨rfl, rfl⟩
      · simp only [next, Function.update_of_ne e] at hb ho
        exact h.empty b o hb ho
    active := fun b o hb ho => by
      by_cases e : b = a
      · subst e; simp [next] at hb
      · simp only [next, Function.update_of_ne e] at hb ho
        exact h.active b o hb ho
    moved := fun b o hb ho => by
      by_cases e : b = a
      · subst e; simp [next] at hb
      · simp only [next, Function.update_of_ne e] at hb ho
        exact h.moved b o hb ho
    owned := fun x hx => by
      have e : x.2 ≠ a := h.owner_ne hx hL
      simp only [Function.update_of_ne e]
      exact h.owned x hx
    ownNodup := h.ownNodup }

theorem MemInv.refill (h : MemInv cs s st own L) (hc : 0 < cs) {a : Nat}
    (ha : Allowed st (.allocate a)) {o : Obj} (ho : s.objs a = some o) :
    ∃ L', (o.refill M cs s.heap).2.index < cs ∧
      MemInv cs ⟨(o.refill M cs s.heap).1, Function.update s.objs a (some (o.refill M cs s.heap).2)⟩
        (next st (.allocate a)) own L' := by
  unfold Obj.refill
  split
  · rename_i hi
    have hfresh : M.pick s.heap.time s.heap.live ∉ s.heap.live := M.fresh _ _
    generalize hx : M.pick s.heap.time s.heap.live = c at hfresh
    have hcL : ∀ b, c ∉ L b := fun b hm => hfresh (h.live b c hm)
    have hall : s.heap.allocate M o.head =
        (⟨s.heap.time + 1, c :: s.heap.live, Function.update s.heap.prev c o.head⟩, c) := by
      simp [Heap.allocate, hx]
    rw [hall]
    have hch : ∀ b, ∀ q, Chain s.heap q (L b) →
        Chain ⟨s.heap.time + 1, c :: s.heap.live, Function.update s.heap.prev c o.head⟩ q (L b) := by
      intro b q hq
      refine hq.congr (fun x hx => List.mem_cons_of_mem _ (h.live b x hx)) fun x hx => ?_
      exact Function.update_of_ne (fun (e : x = c) => hcL b (e ▸ hx)) _ _
    refine ⟨Function.update L a (c :: L a), hc, ?_⟩
    exact {
      chain := fun b o' hb => by
        by_cases e : b = a
        · subst e
          simp only [Function.update_self, Option.some.injEq] at hb ⊢
          subst hb
          refine .cons (by simp) ?_
          simp only [Function.update_self]
          exact hch b _ (h.chain b o ho)
        · simp only [Function.update_of_ne e] at hb ⊢
          exact hch b _ (h.chain b o' hb)
      gone := fun b hb => by
        by_cases e : b = a
        · subst e; simp at hb
        · simp only [Function.update_of_ne e] at hb ⊢
          exact h.gone b hb
      nodup := fun b => by
        by_cases e : b = a
        · subst e
          rw [Function.update_self]
          exact List.nodup_cons.2 ⟨hcL b, h.nodup b⟩
        · rw [Function.update_of_ne e]
          exact h.nodup b
      disj := fun b b' hbb x hx => by
        by_cases e : b = a
        · subst e
          simp only [Function.update_self] at hx
          rw [Function.update_of_ne (Ne.symm hbb)]
          rcases List.mem_cons.1 hx with rfl | hx
          · exact hcL b'
          · exact h.disj b b' hbb x hx
        · simp only [Function.update_of_ne e] at hx
          by_cases e' : b' = a
          · subst e'
            rw [Function.update_self, List.mem_cons, not_or]
            exact ⟨fun e2 => hcL b (e2 ▸ hx), h.disj b b' hbb x hx⟩
          · rw [Function.update_of_ne e']
            exact h.disj b b' hbb x hx
      live := fun b x hx => by
        by_cases e : b = a
        · subst e
          simp only [Function.update_self] at hx
          rcases List.mem_cons.1 hx with rfl | hx
          · simp
          · exact List.mem_cons_of_mem _ (h.live b x hx)
        · simp only [Function.update_of_ne e] at hx
          exact List.mem_cons_of_mem _ (h.live b x hx)
      cover := fun x hx => by
        rcases List.mem_cons.1 hx with rfl | hx
        · exact ⟨a, by simp⟩
        · obtain ⟨b, hb⟩ := h.cover x hx
          refine ⟨b, ?_⟩
          by_cases e : b = a
          · subst e
            rw [Function.update_self]
            exact List.mem_cons_of_mem _ hb
          · rwa [Function.update_of_ne e]
      absent := fun b => by
        by_cases e : b = a
        · subst e; simp [next]
        · simp only [next, Function.update_of_ne e]
          exact h.absent b
      empty := fun b o' hb ho' => by
        by_cases e : b = a
        · subst e; simp [next] at hb
        · simp only [next, Function.update_of_ne e] at hb ho'
          exact h.empty b o' hb ho'
      active := fun b o' hb ho' => by
        by_cases e : b = a
        · subst e
          simp only [Function.update_self, Option.some.injEq] at ho'
          subst ho'
          exact ⟨c, L b, by simp, rfl, Nat.zero_le _⟩
        · simp only [next, Function.update_of_ne e] at hb ho' ⊢
          exact h.active b o' hb ho'
      moved := fun b o' hb ho' => by
        by_cases e : b = a
        · subst e; simp [next] at hb
        · simp only [next, Function.update_of_ne e] at hb ho'
          exact h.moved b o' hb ho'
      owned := fun x hx => by
        have hx' := h.owned x hx
        refine ⟨?_, hx'.2.1, ?_⟩
        · by_cases e : x.2 = a
          · rw [e, Function.update_self]
            exact List.mem_cons_of_mem _ (e ▸ hx'.1)
          · rw [Function.update_of_ne e]
            exact hx'.1
        · intro o' ho' hch'
          by_cases e : x.2 = a
          · simp only [e, Function.update_self, Option.some.injEq] at ho'
            subst ho'
            simp only [Option.some.injEq] at hch'
            exact absurd hx'.1 (hch' ▸ hcL x.2)
          · simp only [Function.update_of_ne e] at ho'
            exact hx'.2.2 o' ho' hch'
      ownNodup := h.ownNodup }
  · rename_i hi
    have hact : st a = .active := by
      rcases ha with ha | ha
      · exact absurd (h.empty a o ha ho).2 hi
      · exact ha
    obtain ⟨c, l, _, _, hle⟩ := h.active a o hact ho
    refine ⟨L, lt_of_le_of_ne hle hi, ?_⟩
    have e1 : Function.update s.objs a (some o) = s.objs := by
      rw [← ho]; exact Function.update_eq_self a s.objs
    have e2 : next st (.allocate a) = st := by
      rw [next, ← hact]; exact Function.update_eq_self a st
    rw [e1, e2]
    exact h

theorem MemInv.take (h : MemInv cs s st own L) {a : Nat} {o : Obj} (ho : s.objs a = some o)
    (ha : st a = .active) (hlt : o.index < cs) :
    ∃ p o', o.take cs s.heap = .ok (p, s.heap, o') ∧
      MemInv cs ⟨s.heap, Function.update s.objs a (some o')⟩ st ((p, a) :: own) L := by
  obtain ⟨c, l, hL, hch, _⟩ := h.active a o ha ho
  have hcL : c ∈ L a := by rw [hL]; simp
  refine ⟨(c, o.index), ⟨o.head, o.index + 1, o.chunk⟩, ?_, ?_⟩
  · unfold Obj.take
    rw [hch]
    exact if_pos ⟨h.live a c hcL, hlt⟩
  · exact {
      chain := fun b o' hb => by
        by_cases e : b = a
        · subst e
          simp only [Function.update_self, Option.some.injEq] at hb
          subst hb
          exact h.chain b o ho
        · simp only [Function.update_of_ne e] at hb
          exact h.chain b o' hb
      gone := fun b hb => by
        by_cases e : b = a
        · subst e; simp at hb
        · simp only [Function.update_of_ne e] at hb
          exact h.gone b hb
      nodup := h.nodup
      disj := h.disj
      live := h.live
      cover := h.cover
      absent := fun b => by
        by_cases e : b = a
        · subst e; simp [ha]
        · simp only [Function.update_of_ne e]
          exact h.absent b
      empty := fun b o' hb ho' => by
        by_cases e : b = a
        · subst e; simp [ha] at hb
        · simp only [Function.update_of_ne e] at ho'
          exact h.empty b o' hb ho'
      active := fun b o' hb ho' => by
        by_cases e : b = a
        · subst e
          simp only [Function.update_self, Option.some.injEq] at ho'
          subst ho'
          exact ⟨c, l, hL, hch, hlt⟩
        · simp only [Function.update_of_ne e] at ho'
          exact h.active b o' hb ho'
      moved := fun b o' hb ho' => by
        by_cases e : b = a
        · subst e; simp [ha] at hb
        · simp only [Function.update_of_ne e] at ho'
          exact h.moved b o' hb ho'
      owned := fun x hx => by
        rcases List.mem_cons.1 hx with rfl | hx
        · refine ⟨hcL, hlt, fun o' ho' _ => ?_⟩
          simp only [Function.update_self, Option.some.injEq] at ho'
          subst ho'
          exact Nat.lt_succ_self _
        · have hx' := h.owned x hx
          refine ⟨hx'.1, hx'.2.1, fun o' ho' hc' => ?_⟩
          by_cases e : x.2 = a
          · simp only [e, Function.update_self, Option.some.injEq] at ho'
            subst ho'
            exact Nat.lt_succ_of_lt (hx'.2.2 o (by rw [e]; exact ho) hc')
          · simp only [Function.update_of_ne e] at ho'
            exact hx'.2.2 o' ho' hc'
      ownNodup := by
        rw [List.map_cons, List.nodup_cons]
        refine ⟨fun hm => ?_, h.ownNodup⟩
        obtain ⟨x, hx, he⟩ := List.mem_map.1 hm
        have hx' := h.owned x hx
        have hxa : x.2 = a := by
          by_contra hne
          refine h.disj x.2 a hne x.1.1 hx'.1 ?_
          rw [he]
          exact hcL
        have := hx'.2.2 o (by rw [hxa]; exact ho) (by rw [he]; exact hch)
        rw [he] at this
        exact lt_irrefl _ this }

theorem MemInv.allocate (h : MemInv cs s st own L) (hc : 0 < cs) {a : Nat}
    (ha : Allowed st (.allocate a)) :
    ∃ s' r L', s.step M cs (.allocate a) = .ok (s', r) ∧
      MemInv cs s' (next st (.allocate a)) (ownership own (.allocate a) r) L' := by
  have hne : s.objs a ≠ none := fun hn => by
    have := (h.absent a).2 hn
    rcases ha with ha | ha <;> rw [this] at ha <;> cases ha
  obtain ⟨o, ho⟩ := Option.ne_none_iff_exists'.1 hne
  obtain ⟨L', hlt, h1⟩ := h.refill (M := M) hc ha ho
  obtain ⟨p, o', e, h2⟩ := h1.take (a := a) (o := (o.refill M cs s.heap).2)
    (by simp) (by simp [next]) hlt
  refine ⟨_, some p, L', ?_, h2⟩
  have ea : o.allocate M cs s.heap = .ok (p, (o.refill M cs s.heap).1, o') := e
  simp [MemState.step, ho, ea, Outcome.bind]

/-- Handing over the contents of `b` to `a`, where `a` owns nothing. -/
theorem MemInv.move (h : MemInv cs s st own L) {a b : Nat} (hab : a ≠ b) {ob : Obj}
    (hb : s.objs b = some ob) (ha : L a = []) {objs' : Nat → Option Obj}
    (hobj : objs' = Function.update (Function.update s.objs b (some { ob with head := none })) a
      (some ob)) {st' : Nat → Status}
    (hst : st' = Function.update (Function.update st b (st b).afterMove) a (st b)) :
    MemInv cs ⟨s.heap, objs'⟩ st' (own.map fun x => if x.2 = b then (x.1, a) else x)
      (Function.update (Function.update L b []) a (L b)) := by
  subst hobj hst
  have hba : b ≠ a := Ne.symm hab
  have hnb : st b ≠ .absent := fun e => by rw [(h.absent b).1 e] at hb; cases hb
  exact {
    chain := fun c o hc => by
      by_cases e : c = a
      · subst e
        simp only [Function.update_self, Option.some.injEq] at hc ⊢
        subst hc
        exact h.chain b ob hb
      · by_cases e' : c = b
        · subst e'
          simp only [Function.update_of_ne e, Function.update_self, Option.some.injEq] at hc ⊢
          subst hc
          exact .nil
        · simp only [Function.update_of_ne e, Function.update_of_ne e'] at hc ⊢
          exact h.chain c o hc
    gone := fun c hc => by
      by_cases e : c = a
      · subst e; simp at hc
      · by_cases e' : c = b
        · subst e'; simp [Function.update_of_ne e] at hc
        · simp only [Function.update_of_ne e, Function.update_of_ne e'] at hc ⊢
          exact h.gone c hc
    nodup := fun c => by
      by_cases e : c = a
      · subst e; simpa using h.nodup b
      · by_cases e' : c = b
        · subst e'; simp [Function.update_of_ne e]
        · simpa only [Function.update_of_ne e, Function.update_of_ne e'] using h.nodup c
    disj := fun c c' hcc x hx => by
      by_cases e : c = a
      · subst e
        simp only [Function.update_self] at hx
        rw [Function.update_of_ne (Ne.symm hcc)]
        by_cases e' : c' = b
        · subst e'; simp
        · rw [Function.update_of_ne e']
          exact h.disj b c' (Ne.symm e') x hx
      · simp only [Function.update_of_ne e] at hx
        by_cases e2 : c = b
        · subst e2; simp at hx
        · simp only [Function.update_of_ne e2] at hx
          by_cases e3 : c' = a
          · subst e3
            rw [Function.update_self]
            exact h.disj c b e2 x hx
          · rw [Function.update_of_ne e3]
            by_cases e4 : c' = b
            · subst e4; simp
            · rw [Function.update_of_ne e4]
              exact h.disj c c' hcc x hx
    live := fun c x hx => by
      by_cases e : c = a
      · subst e
        simp only [Function.update_self] at hx
        exact h.live b x hx
      · simp only [Function.update_of_ne e] at hx
        by_cases e2 : c = b
        · subst e2; simp at hx
        · simp only [Function.update_of_ne e2] at hx
          exact h.live c x hx
    cover := fun x hx => by
      obtain ⟨c, hc⟩ := h.cover x hx
      by_cases e : c = b
      · exact ⟨a, by rw [Function.update_self, ← e]; exact hc⟩
      · have e2 : c ≠ a := by
          rintro rfl
          rw [ha] at hc
          exact absurd hc (by simp)
        exact ⟨c, by rw [Function.update_of_ne e2, Function.update_of_ne e]; exact hc⟩
    absent := fun c => by
      by_cases e : c = a
      · subst e; simp [hnb]
      · by_cases e' : c = b
        · subst e'
          simp only [Function.update_of_ne e, Function.update_self]
          cases hs : st c <;> simp_all [Status.afterMove]
        · simp only [Function.update_of_ne e, Function.update_of_ne e']
          exact h.absent c
    empty := fun c o hc ho => by
      by_cases e : c = a
      · subst e
        simp only [Function.update_self, Option.some.injEq] at hc ho
        subst ho
        exact h.empty b ob hc hb
      · by_cases e' : c = b
        · subst e'
          simp only [Function.update_of_ne e, Function.update_self, Option.some.injEq] at hc ho
          subst ho
          have : st c = .empty := by cases hs : st c <;> simp_all [Status.afterMove]
          exact ⟨rfl, (h.empty c ob this hb).2⟩
        · simp only [Function.update_of_ne e, Function.update_of_ne e'] at hc ho
          exact h.empty c o hc ho
    active := fun c o hc ho => by
      by_cases e : c = a
      · subst e
        simp only [Function.update_self, Option.some.injEq] at hc ho ⊢
        subst ho
        exact h.active b ob hc hb
      · by_cases e' : c = b
        · subst e'
          simp only [Function.update_of_ne e, Function.update_self] at hc
          cases hs : st c <;> simp_all [Status.afterMove]
        · simp only [Function.update_of_ne e, Function.update_of_ne e'] at hc ho ⊢
          exact h.active c o hc ho
    moved := fun c o hc ho => by
      by_cases e : c = a
      · subst e
        simp only [Function.update_self, Option.some.injEq] at hc ho
        subst ho
        exact h.moved b ob hc hb
      · by_cases e' : c = b
        · subst e'
          simp only [Function.update_of_ne e, Function.update_self, Option.some.injEq] at hc ho
          subst ho
          rfl
        · simp only [Function.update_of_ne e, Function.update_of_ne e'] at hc ho
          exact h.moved c o hc ho
    owned := fun y hy => by
      obtain ⟨x, hx, rfl⟩ := List.mem_map.1 hy
      have hx' := h.owned x hx
      by_cases e : x.2 = b
      · simp only [e, if_true, Function.update_self, Option.some.injEq]
        refine ⟨e ▸ hx'.1, hx'.2.1, ?_⟩
        rintro o rfl hc
        exact hx'.2.2 _ (by rw [e]; exact hb) hc
      · have e2 : x.2 ≠ a := h.owner_ne hx ha
        simp only [e, if_false, Function.update_of_ne e2, Function.update_of_ne e]
        exact hx'
    ownNodup := by
      rw [List.map_map]
      have : (Prod.fst ∘ fun x : Ptr × Nat => if x.2 = b then (x.1, a) else x) = Prod.fst := by
        funext x
        simp only [Function.comp]
        split <;> rfl
      rw [this]
      exact h.ownNodup }

theorem MemInv.destroy (h : MemInv cs s st own L) {a : Nat} (ha : Allowed st (.destroy a)) :
    ∃ s' r, s.step M cs (.destroy a) = .ok (s', r) ∧
      MemInv cs s' (next st (.destroy a)) (ownership own (.destroy a) r) (Function.update L a []) := by
  have hne : s.objs a ≠ none := fun hn => ha ((h.absent a).2 hn)
  obtain ⟨o, ho⟩ := Option.ne_none_iff_exists'.1 hne
  have hlen : (L a).length ≤ s.heap.live.length + 1 := Nat.le_succ_of_le <|
    (List.subperm_of_subset (h.nodup a) fun x hx => h.live a x hx).length_le
  obtain ⟨h', e1, e2, e3⟩ := Heap.release_ok (h.chain a o ho) (h.nodup a) hlen
  refine ⟨⟨h', Function.update s.objs a none⟩, none, by simp [MemState.step, ho, e1, Outcome.bind], ?_⟩
  have hlive : ∀ x, x ∈ h'.live ↔ x ∈ s.heap.live ∧ x ∉ L a := by
    intro x
    rw [e2, List.mem_filter]
    simp
  exact {
    chain := fun b o' hb => by
      by_cases e : b = a
      · subst e; simp at hb
      · simp only [Function.update_of_ne e] at hb ⊢
        exact (h.chain b o' hb).congr
          (fun x hx => (hlive x).2 ⟨h.live b x hx, h.disj b a e x hx⟩) fun x _ => by rw [e3]
    gone := fun b hb => by
      by_cases e : b = a
      · subst e; simp
      · simp only [Function.update_of_ne e] at hb ⊢
        exact h.gone b hb
    nodup := fun b => by
      by_cases e : b = a
      · subst e; simp
      · simpa only [Function.update_of_ne e] using h.nodup b
    disj := fun b b' hbb x hx => by
      by_cases e : b = a
      · subst e; simp at hx
      · simp only [Function.update_of_ne e] at hx
        by_cases e' : b' = a
        · subst e'; simp
        · rw [Function.update_of_ne e']
          exact h.disj b b' hbb x hx
    live := fun b x hx => by
      by_cases e : b = a
      · subst e; simp at hx
      · simp only [Function.update_of_ne e] at hx
        exact (hlive x).2 ⟨h.live b x hx, h.disj b a e x hx⟩
    cover := fun x hx => by
      obtain ⟨h1, h2⟩ := (hlive x).1 hx
      obtain ⟨b, hb⟩ := h.cover x h1
      have e : b ≠ a := fun e => h2 (e ▸ hb)
      exact ⟨b, by rw [Function.update_of_ne e]; exact hb⟩
    absent := fun b => by
      by_cases e : b = a
      · subst e; simp [next]
      · simp only [next, Function.update_of_ne e]
        exact h.absent b
    empty := fun b o' hb ho' => by
      by_cases e : b = a
      · subst e; simp at ho'
      · simp only [next, Function.update_of_ne e] at hb ho'
        exact h.empty b o' hb ho'
    active := fun b o' hb ho' => by
      by_cases e : b = a
      · subst e; simp at ho'
      · simp only [next, Function.update_of_ne e] at hb ho' ⊢
        exact h.active b o' hb ho'
    moved := fun b o' hb ho' => by
      by_cases e : b = a
      · subst e; simp at ho'
      · simp only [next, Function.update_of_ne e] at hb ho'
        exact h.moved b o' hb ho'
    owned := fun x hx => by
      obtain ⟨hx, hxa⟩ := List.mem_filter.1 hx
      have e : x.2 ≠ a := by simpa using hxa
      simp only [Function.update_of_ne e]
      exact h.owned x hx
    ownNodup := h.ownNodup.sublist (List.filter_sublist.map _) }

/-- Every allowed operation succeeds and keeps the invariant. -/
theorem MemInv.step (h : MemInv cs s st own L) (hc : 0 < cs) {op : MemOp} (ha : Allowed st op) :
    ∃ s' r L', s.step M cs op = .ok (s', r) ∧ MemInv cs s' (next st op) (ownership own op r) L' := by
  cases op with
  | construct a =>
    obtain ⟨s', r, e, h'⟩ := h.construct (M := M) ha
    exact ⟨s', r, L, e, h'⟩
  | allocate a => exact h.allocate hc ha
  | moveConstruct a b =>
    have hna : s.objs a = none := (h.absent a).1 ha.1
    have hnb : s.objs b ≠ none := fun hn => ha.2 ((h.absent b).2 hn)
    obtain ⟨ob, hb⟩ := Option.ne_none_iff_exists'.1 hnb
    have hab : a ≠ b := by
      rintro rfl
      exact hnb hna
    exact ⟨_, none, _, by simp [MemState.step, hna, hb],
      h.move hab hb (h.gone a hna) rfl rfl⟩
  | moveAssign a b =>
    obtain ⟨hab, hb0, ha'⟩ := ha
    have hnb : s.objs b ≠ none := fun hn => hb0 ((h.absent b).2 hn)
    obtain ⟨ob, hb⟩ := Option.ne_none_iff_exists'.1 hnb
    have hna : s.objs a ≠ none := fun hn => by
      have := (h.absent a).2 hn
      rcases ha' with e | e <;> rw [this] at e <;> cases e
    obtain ⟨oa, hoa⟩ := Option.ne_none_iff_exists'.1 hna
    have hhead : oa.head = none := by
      rcases ha' with e | e
      · exact (h.empty a oa e hoa).1
      · exact h.moved a oa e hoa
    refine ⟨⟨s.heap, Function.update (Function.update (Function.update s.objs a
      (some { oa with head := ob.head })) b (some { ob with head := none })) a (some ob)⟩, none, _,
      by simp [MemState.step, hoa, hb, Function.update_of_ne (Ne.symm hab), Function.update_of_ne hab], h.move hab hb (h.nil_of_head hoa hhead) ?_ rfl⟩
    funext c
    by_cases e : c = a
    · subst e; simp
    · by_cases e' : c = b
      · subst e'; simp [Function.update_of_ne e]
      · simp [Function.update_of_ne e, Function.update_of_ne e']
  | destroy a =>
    obtain ⟨s', r, e, h'⟩ := h.destroy (M := M) ha
    exact ⟨s', r, _, e, h'⟩

theorem MemState.step_result {op : MemOp} {s' : MemState} {r : Option Ptr}
    (h : s.step M cs op = .ok (s', r)) : r.isSome ↔ ∃ a, op = .allocate a := by
  cases op with
  | construct a =>
    cases ho : s.objs a <;> simp [MemState.step, ho] at h
    simp [← h.2]
  | allocate a =>
    cases ho : s.objs a with
    | none => simp [MemState.step, ho] at h
    | some o =>
      cases ha : o.allocate M cs s.heap with
      | ok x =>
        simp [MemState.step, ho, ha, Outcome.bind] at h
        simp [← h.2]
      | ub => simp [MemState.step, ho, ha, Outcome.bind] at h
      | oof => simp [MemState.step, ho, ha, Outcome.bind] at h
  | moveConstruct a b =>
    cases ho : s.objs a <;> cases hb : s.objs b <;> simp [MemState.step, ho, hb] at h
    simp [← h.2]
  | moveAssign a b =>
    simp only [reduceCtorEq, exists_false, iff_false]
    have : r = none := by
      unfold MemState.step at h
      simp only at h
      split at h
      · split at h
        · cases h
        · split at h
          · cases h
          · simp only [Outcome.ok.injEq, Prod.mk.injEq] at h
            exact h.2.symm
      · cases h
    simp [this]
  | destroy a =>
    cases ho : s.objs a with
    | none => simp [MemState.step, ho] at h
    | some o =>
      cases ha : s.heap.release (s.heap.live.length + 1) o.head with
      | ok x =>
        simp [MemState.step, ho, ha, Outcome.bind] at h
        simp [← h.2]
      | ub => simp [MemState.step, ho, ha, Outcome.bind] at h
      | oof => simp [MemState.step, ho, ha, Outcome.bind] at h

/-- The same for sequences of operations. -/
theorem MemInv.run (h : MemInv cs s st own L) (hc : 0 < cs) (ops : List MemOp)
    (hw : WellBehaved st ops) :
    ∃ s' rs L', s.run M cs ops = .ok (s', rs) ∧
      List.Forall₂ (fun (op : MemOp) (r : Option Ptr) => r.isSome ↔ ∃ a, op = .allocate a) ops rs ∧
      MemInv cs s' (statesAfter st ops) (ownershipAfter own ops rs) L' := by
  induction ops generalizing s st own L with
  | nil => exact ⟨s, [], L, rfl, .nil, h⟩
  | cons op ops ih =>
    obtain ⟨s1, r, L1, e1, h1⟩ := h.step (M := M) hc hw.1
    obtain ⟨s2, rs, L2, e2, hlen, h2⟩ := ih h1 hw.2
    exact ⟨s2, r :: rs, L2, by simp [MemState.run, e1, e2, Outcome.bind],
      .cons (MemState.step_result e1) hlen, h2⟩

end Pico
