import Verif.Model.Exhausted
import Verif.Proof.Memory
import Verif.SpecTree

/-!
# Invariants for memory that runs out
-/

namespace Pico

/-- Number of branches of a tree. -/
def Spec.branches {β : Type} : Tree β → Nat
  | .leaf _ _ => 0
  | .branch _ l r => branches l + branches r + 1

section
variable {β : Type}

/-- The memory while a tree is created from the memory `h0`: the allocator owns the chunks `L`, the vectors that exist
are `V`, `out` are the nodes that are in use, and all the rest is as in `h0`. -/
structure Mem (cs : Nat) (h0 : Heap) (L V : List Nat) (out : List Ptr) (s : NodeHeap β) : Prop where
  alloc : AllocOk cs s.heap s.obj out
  chain : Chain s.heap s.obj.head L
  nodup : (L ++ V).Nodup
  live : ∀ a, a ∈ s.heap.live ↔ a ∈ h0.live ∨ a ∈ L ∨ a ∈ V
  apart : ∀ a ∈ L ++ V, a ∉ h0.live
  place : ∀ p ∈ out, p.1 ∈ h0.live ∨ p.1 ∈ L
  chunk : s.obj.index < cs → ∃ c ∈ L, s.obj.chunk = some c
  prev : ∀ a ∈ h0.live, s.heap.prev a = h0.prev a
  time : h0.time ≤ s.heap.time

/-- `new` failed at some time since `h0`. -/
def Failed (fails : Nat → Nat → Bool) (h0 : Heap) : Prop := ∃ t n, h0.time ≤ t ∧ n ≠ 0 ∧ fails t n = true

variable {cs : Nat} {h0 : Heap} {L V : List Nat} {out : List Ptr} {s : NodeHeap β} {M : Malloc}
  {fails : Nat → Nat → Bool}

theorem Mem.failed (m : Mem cs h0 L V out s) : Mem cs h0 L V out s.failed where
  alloc := ⟨m.alloc.index, m.alloc.chunk, m.alloc.live, m.alloc.below, m.alloc.nodup⟩
  chain := m.chain.congr (fun x hx => m.chain.mem_live x hx) fun _ _ => rfl
  nodup := m.nodup
  live := m.live
  apart := m.apart
  place := m.place
  chunk := m.chunk
  prev := m.prev
  time := m.time.trans (Nat.le_succ _)

theorem Mem.set (m : Mem cs h0 L V out s) (p : Ptr) (x : Node β) : Mem cs h0 L V out (s.set p x) :=
  ⟨m.alloc, m.chain, m.nodup, m.live, m.apart, m.place, m.chunk, m.prev, m.time⟩

theorem Mem.permV {V' : List Nat} (m : Mem cs h0 L V out s) (hp : V.Perm V') : Mem cs h0 L V' out s where
  alloc := m.alloc
  chain := m.chain
  nodup := (hp.append_left L).nodup_iff.1 m.nodup
  live a := by rw [m.live a, hp.mem_iff]
  apart a ha := m.apart a ((hp.append_left L).mem_iff.2 ha)
  place := m.place
  chunk := m.chunk
  prev := m.prev
  time := m.time

theorem Mem.permOut {out' : List Ptr} (m : Mem cs h0 L V out s) (hp : out.Perm out') : Mem cs h0 L V out' s :=
  ⟨m.alloc.perm hp, m.chain, m.nodup, m.live, m.apart, fun p h => m.place p (hp.mem_iff.2 h), m.chunk, m.prev,
    m.time⟩

/-- Fewer nodes. -/
theorem Mem.sub {out' : List Ptr} (m : Mem cs h0 L V out s) (hp : out'.Sublist out) : Mem cs h0 L V out' s :=
  ⟨⟨m.alloc.index, m.alloc.chunk, fun p h => m.alloc.live p (hp.subset h), fun p h => m.alloc.below p (hp.subset h),
    m.alloc.nodup.sublist hp⟩, m.chain, m.nodup, m.live, m.apart, fun p h => m.place p (hp.subset h), m.chunk, m.prev,
    m.time⟩

theorem Mem.newVec (m : Mem cs h0 L V out s) :
    Mem cs h0 L ((s.heap.allocate M none).2 :: V) out { s with heap := (s.heap.allocate M none).1 } := by
  have hf : M.pick s.heap.time s.heap.live ∉ s.heap.live := M.fresh _ _
  have hf' : M.pick s.heap.time s.heap.live ∉ h0.live ∧ M.pick s.heap.time s.heap.live ∉ L ∧
      M.pick s.heap.time s.heap.live ∉ V := by
    rw [m.live] at hf
    simpa [not_or] using hf
  have hne : ∀ a ∈ s.heap.live, a ≠ M.pick s.heap.time s.heap.live := fun a ha e => hf (e ▸ ha)
  simp only [Heap.allocate]
  refine ⟨⟨m.alloc.index, fun h => ?_, fun p hp => ⟨List.mem_cons_of_mem _ (m.alloc.live p hp).1,
    (m.alloc.live p hp).2⟩, m.alloc.below, m.alloc.nodup⟩, ?_, ?_, fun a => ?_, fun a ha => ?_, m.place, m.chunk,
    fun a ha => ?_, m.time.trans (Nat.le_succ _)⟩
  · obtain ⟨c, h1, h2⟩ := m.alloc.chunk h
    exact ⟨c, h1, List.mem_cons_of_mem _ h2⟩
  · refine m.chain.congr (fun x hx => List.mem_cons_of_mem _ (m.chain.mem_live x hx)) fun x hx => ?_
    exact Function.update_of_ne (hne x (m.chain.mem_live x hx)) _ _
  · refine List.perm_middle.nodup_iff.2 (List.nodup_cons.2 ⟨?_, m.nodup⟩)
    rw [List.mem_append, not_or]
    exact hf'.2
  · simp only [List.mem_cons, m.live a]
    tauto
  · rw [List.mem_append, List.mem_cons] at ha
    rcases ha with ha | rfl | ha
    · exact m.apart a (by simp [ha])
    · exact hf'.1
    · exact m.apart a (by simp [ha])
  · simp only
    rw [Function.update_of_ne (hne a ((m.live a).2 (.inl ha)))]
    exact m.prev a ha

theorem Mem.freeVec {v : Option Nat} (m : Mem cs h0 L (v.toList ++ V) out s) :
    ∃ s', freeVec v s = .ok s' ∧ Mem cs h0 L V out s' ∧ s'.node = s.node ∧ s'.obj = s.obj ∧
      s'.heap.time = s.heap.time := by
  cases v with
  | none => exact ⟨s, rfl, by simpa using m, rfl, rfl, rfl⟩
  | some a =>
    have m' : Mem cs h0 L (a :: V) out s := by simpa using m
    have hL : a ∉ L ∧ a ∉ V ∧ (L ++ V).Nodup := by
      have := List.perm_middle.nodup_iff.1 m'.nodup
      simpa [not_or, and_assoc] using List.nodup_cons.1 this
    have h0a : a ∉ h0.live := m'.apart a (by simp)
    refine ⟨_, if_pos ((m'.live a).2 (by simp)), ?_, rfl, rfl, rfl⟩
    have hne : ∀ p ∈ out, p.1 ≠ a := fun p hp e => by
      rcases m'.place p hp with h | h
      · exact h0a (e ▸ h)
      · exact hL.1 (e ▸ h)
    refine ⟨⟨m'.alloc.index, fun h => ?_, fun p hp => ⟨?_, (m'.alloc.live p hp).2⟩, m'.alloc.below, m'.alloc.nodup⟩,
      ?_, hL.2.2, fun x => ?_, fun x hx => m'.apart x (by simp only [List.mem_append, List.mem_cons] at hx ⊢; tauto),
      m'.place, m'.chunk, m'.prev, m'.time⟩
    · obtain ⟨c, hc, e⟩ := m'.chunk h
      refine ⟨c, e, List.mem_filter.2 ⟨(m'.live c).2 (by simp [hc]), ?_⟩⟩
      have : c ≠ a := fun e => hL.1 (e ▸ hc)
      simpa using this
    · exact List.mem_filter.2 ⟨(m'.alloc.live p hp).1, by simpa using hne p hp⟩
    · refine m'.chain.congr (fun x hx => List.mem_filter.2 ⟨m'.chain.mem_live x hx, ?_⟩) fun _ _ => rfl
      have : x ≠ a := fun e => hL.1 (e ▸ hx)
      simpa using this
    · simp only [Heap.delete, List.mem_filter, m'.live x, List.mem_cons, ne_eq, decide_not, Bool.not_eq_eq_eq_not,
        Bool.not_true, decide_eq_false_iff_not]
      constructor
      · tauto
      · rintro (h | h | h)
        · exact ⟨.inl h, fun e => h0a (e ▸ h)⟩
        · exact ⟨.inr (.inl h), fun e => hL.1 (e ▸ h)⟩
        · exact ⟨.inr (.inr (.inr h)), fun e => hL.2.1 (e ▸ h)⟩

/-- The allocator is destroyed: only the nodes in the memory `h0` are left. -/
theorem Mem.freeNodes (m : Mem cs h0 L V out s) (ho : ∀ p ∈ out, p.1 ∈ h0.live) :
    ∃ s', freeNodes s = .ok s' ∧ s'.node = s.node ∧
      (∀ a, a ∈ s'.heap.live ↔ a ∈ h0.live ∨ a ∈ V) ∧ V.Nodup ∧ (∀ a ∈ V, a ∉ h0.live) ∧
      (∀ a ∈ h0.live, s'.heap.prev a = h0.prev a) ∧ ∀ p ∈ out, p.1 ∈ s'.heap.live := by
  have hn := List.nodup_append'.1 m.nodup
  have hlen : L.length ≤ s.heap.live.length := by
    have : L.Subperm s.heap.live := List.subperm_of_subset hn.1 fun x hx => m.chain.mem_live x hx
    exact this.length_le
  obtain ⟨h', e, hl, hp⟩ := Heap.release_ok m.chain hn.1 (Nat.le_succ_of_le hlen)
  have hlive : ∀ a, a ∈ h'.live ↔ a ∈ h0.live ∨ a ∈ V := by
    intro a
    rw [hl, List.mem_filter, m.live a]
    simp only [decide_not, Bool.not_eq_eq_eq_not, Bool.not_true, decide_eq_false_iff_not]
    constructor
    · tauto
    · rintro (h | h)
      · exact ⟨.inl h, fun hL => m.apart a (by simp [hL]) h⟩
      · exact ⟨.inr (.inr h), fun hL => hn.2.2 hL h⟩
  refine ⟨⟨h', { s.obj with head := none }, s.node⟩, by rw [Pico.freeNodes, e]; rfl, rfl, hlive, hn.2.1, fun a ha => m.apart a (by simp [ha]), fun a ha => ?_,
    fun p hpo => (hlive _).2 (.inl (ho p hpo))⟩
  simp only [hp]
  exact m.prev a ha

theorem Mem.allocate (hc : 0 < cs) (m : Mem cs h0 L V out s) :
    ∃ p s' L', s.allocate M cs = .ok (p, s') ∧ p ∉ out ∧ Mem cs h0 L' V (p :: out) s' ∧
      s'.node = Function.update s.node p none ∧ 0 < s'.obj.index ∧
      s'.heap.time * cs + s'.obj.index = s.heap.time * cs + s.obj.index + 1 := by
  obtain ⟨p, s', e, hp, ok', hn⟩ := NodeHeap.allocate_ok (M := M) hc m.alloc
  have hf : M.pick s.heap.time s.heap.live ∉ s.heap.live := M.fresh _ _
  have hf' : M.pick s.heap.time s.heap.live ∉ h0.live ∧ M.pick s.heap.time s.heap.live ∉ L ∧
      M.pick s.heap.time s.heap.live ∉ V := by
    rw [m.live] at hf
    simpa [not_or] using hf
  have hne : ∀ a ∈ s.heap.live, a ≠ M.pick s.heap.time s.heap.live := fun a ha e => hf (e ▸ ha)
  unfold NodeHeap.allocate Obj.allocate at e
  by_cases hi : s.obj.index = cs
  · have er : s.obj.refill M cs s.heap = ((s.heap.allocate M s.obj.head).1,
        ⟨some (s.heap.allocate M s.obj.head).2, 0, some (s.heap.allocate M s.obj.head).2⟩) := if_pos hi
    have ht : Obj.take cs (s.heap.allocate M s.obj.head).1
        ⟨some (s.heap.allocate M s.obj.head).2, 0, some (s.heap.allocate M s.obj.head).2⟩ =
        .ok ((M.pick s.heap.time s.heap.live, 0), (s.heap.allocate M s.obj.head).1,
          ⟨some (s.heap.allocate M s.obj.head).2, 1, some (s.heap.allocate M s.obj.head).2⟩) := by
      exact if_pos ⟨by simp [Heap.allocate], hc⟩
    rw [er] at e
    dsimp only at e
    rw [ht] at e
    simp only [Outcome.bind, Outcome.ok.injEq, Prod.mk.injEq] at e
    obtain ⟨rfl, rfl⟩ := e
    refine ⟨_, _, M.pick s.heap.time s.heap.live :: L, by
      rw [NodeHeap.allocate, Obj.allocate, er]
      dsimp only
      rw [ht]
      rfl, hp, ⟨ok', .cons (by simp [Heap.allocate]) ?_, ?_, fun a => ?_, fun a ha => ?_, fun q hq => ?_, fun _ => ⟨M.pick s.heap.time s.heap.live, by simp, rfl⟩,
        fun a ha => ?_, m.time.trans (Nat.le_succ _)⟩, rfl, Nat.one_pos, by
          simp only [Heap.allocate, Nat.add_mul, Nat.one_mul, hi]⟩
    · simp only [Heap.allocate, Function.update_self]
      refine m.chain.congr (fun x hx => List.mem_cons_of_mem _ (m.chain.mem_live x hx)) fun x hx => ?_
      exact Function.update_of_ne (hne x (m.chain.mem_live x hx)) _ _
    · rw [List.cons_append]
      refine List.nodup_cons.2 ⟨?_, m.nodup⟩
      rw [List.mem_append, not_or]
      exact hf'.2
    · simp only [Heap.allocate, List.mem_cons, m.live a]
      tauto
    · rw [List.cons_append, List.mem_cons] at ha
      rcases ha with rfl | ha
      · exact hf'.1
      · exact m.apart a ha
    · rcases List.mem_cons.1 hq with rfl | hq
      · exact .inr (by simp)
      · rcases m.place q hq with h | h
        · exact .inl h
        · exact .inr (by simp [h])
    · simp only [Heap.allocate]
      rw [Function.update_of_ne (hne a ((m.live a).2 (.inl ha)))]
      exact m.prev a ha
  · have er : s.obj.refill M cs s.heap = (s.heap, s.obj) := if_neg hi
    have hlt : s.obj.index < cs := lt_of_le_of_ne m.alloc.index hi
    obtain ⟨c, hcL, hch⟩ := m.chunk hlt
    rw [er] at e
    have ht : s.obj.take cs s.heap = .ok ((c, s.obj.index), s.heap, ⟨s.obj.head, s.obj.index + 1, s.obj.chunk⟩) := by
      unfold Obj.take
      rw [hch]
      exact if_pos ⟨m.chain.mem_live c hcL, hlt⟩
    rw [ht] at e
    simp only [Outcome.bind, Outcome.ok.injEq, Prod.mk.injEq] at e
    obtain ⟨rfl, rfl⟩ := e
    refine ⟨_, _, L, by
      rw [NodeHeap.allocate, Obj.allocate, er, ht]
      rfl, hp, ⟨ok', m.chain, m.nodup, m.live, m.apart, fun q hq => ?_, fun _ => ⟨c, hcL, hch⟩, m.prev, m.time⟩, rfl,
      Nat.succ_pos _, rfl⟩
    rcases List.mem_cons.1 hq with rfl | hq
    · exact .inr hcL
    · exact m.place q hq

/-! ## Comparing with a computation that does not throw -/

/-- The computation `y` on the memory does what the computation `x` does: it ends with related results, or both are
undefined, or both run out of fuel; or `y` throws, in a state described by `Q`. -/
def Tracks {σ τ υ : Type} (P : τ → υ → σ → Prop) (Q : σ → Prop) : Outcome τ → Try σ υ → Prop
  | .ok v, .ok u s => P v u s
  | .ub, .ub => True
  | .oof, .oof => True
  | _, .throws s => Q s
  | _, _ => False

section
variable {σ τ τ' υ υ' : Type} {P : τ → υ → σ → Prop} {P' : τ' → υ' → σ → Prop} {Q Q' : σ → Prop}

theorem Tracks.bind {x : Outcome τ} {y : Try σ υ} {f : τ → Outcome τ'} {g : υ → σ → Try σ υ'} (h : Tracks P Q x y)
    (hq : ∀ s, Q s → Q' s) (hk : ∀ v u s, P v u s → Tracks P' Q' (f v) (g u s)) :
    Tracks P' Q' (x.bind f) (y.bind g) := by
  cases x <;> cases y <;> simp only [Tracks, Outcome.bind, Try.bind] at h ⊢
  case ok.ok => exact hk _ _ _ h
  case ok.throws v s => cases f v <;> exact hq _ h
  all_goals exact hq _ h

/-- A step of which the other computation knows nothing. -/
theorem Tracks.step {v : τ} {x : Outcome τ'} {y : Try σ υ} {g : υ → σ → Try σ υ'} (h : Tracks P Q (.ok v) y)
    (hq : ∀ s, Q s → Q' s) (hk : ∀ u s, P v u s → Tracks P' Q' x (g u s)) :
    Tracks P' Q' x (y.bind g) := by
  have := Tracks.bind (f := fun _ => x) (g := g) (P' := P') (Q' := Q')
    (P := fun (w : τ) u s => w = v ∧ P v u s) (x := .ok v) (y := y)
    (by cases y <;> simp only [Tracks] at h ⊢ <;> first | exact ⟨trivial, h⟩ | exact h) hq
    (fun _ u s h => hk u s h.2)
  exact this

theorem Tracks.mono {P₂ : τ → υ → σ → Prop} {x : Outcome τ} {y : Try σ υ} (h : Tracks P Q x y)
    (hp : ∀ v u s, P v u s → P₂ v u s) (hq : ∀ s, Q s → Q' s) : Tracks P₂ Q' x y := by
  cases x <;> cases y <;> simp only [Tracks] at h ⊢
  case ok.ok => exact hp _ _ _ h
  all_goals exact hq _ h

theorem Tracks.onThrow {x : Outcome τ} {y : Try σ υ} {c : σ → Outcome σ} (h : Tracks P Q x y)
    (hc : ∀ s, Q s → ∃ s', c s = .ok s' ∧ Q' s') : Tracks P Q' x (y.onThrow c) := by
  have key : ∀ s, Q s → Tracks P Q' x (match c s with
    | .ok s => .throws s
    | .ub => .ub
    | .oof => .oof) := fun s hs => by
    obtain ⟨s', e, h'⟩ := hc s hs
    rw [e]
    cases x <;> exact h'
  cases y with
  | ok u s => cases x <;> exact h
  | throws s => exact key s (by cases x <;> exact h)
  | ub => cases x <;> exact h
  | oof => cases x <;> exact h

theorem Tracks.atEnd {P₂ : τ → υ → σ → Prop} {x : Outcome τ} {y : Try σ υ} {c : σ → Outcome σ} (h : Tracks P Q x y)
    (hc : ∀ s, Q s → ∃ s', c s = .ok s' ∧ Q' s') (hp : ∀ v u s, P v u s → ∃ s', c s = .ok s' ∧ P₂ v u s') :
    Tracks P₂ Q' x (y.atEnd c) := by
  have h1 := h.onThrow hc
  unfold Try.atEnd
  have h2 := Tracks.bind (P' := P₂) (Q' := Q') (f := Outcome.ok) (g := fun v s =>
    match c s with
    | .ok s => .ok v s
    | .ub => .ub
    | .oof => .oof) h1 (fun _ h => h) (fun v u s hs => by
      obtain ⟨s', e, h'⟩ := hp v u s hs
      simp only [e]
      exact h')
  cases x <;> exact h2

theorem Tracks.lift {x : Outcome τ} {s : σ} : Tracks (fun v u s' => v = u ∧ s' = s) Q x (Try.lift x s) := by
  cases x <;> simp [Tracks, Try.lift]

end

/-- The result of reading as an outcome. -/
def Load.outcome {τ : Type} : Load τ → Outcome (τ × List Byte)
  | .ok v rest => .ok (v, rest)
  | .eof => .ub
  | .invalid => .ub
  | .throws => .ub
  | .oof => .oof

theorem Load.outcome_bind {τ υ : Type} (x : Load τ) (f : τ → List Byte → Load υ) :
    (x.bind f).outcome = x.outcome.bind fun v => (f v.1 v.2).outcome := by
  cases x <;> rfl

theorem Tracks.read {σ τ : Type} {Q : σ → Prop} {x : Load τ} {s : σ} :
    Tracks (fun v u s' => v = u ∧ s' = s) Q x.outcome (Try.read x s) := by
  cases x <;> simp [Tracks, Try.read, Load.outcome]

/-! ## The functions -/

/-- What is left when something threw: the nodes `out` are as they were in `s`. -/
def Thrown (fails : Nat → Nat → Bool) (cs : Nat) (h0 : Heap) (V : List Nat) (out : List Ptr) (s s' : NodeHeap β) :
    Prop :=
  (∃ L, Mem cs h0 L V out s') ∧ (∀ q ∈ out, s'.node q = s.node q) ∧ Failed fails h0

/-- Calls of `new` for a vector of `n` elements. -/
def calls (n : Nat) : Nat := if n = 0 then 0 else 1

theorem newVec_tracks (n : Nat) (m : Mem cs h0 L V out s) :
    Tracks (fun _ v s' => Mem cs h0 L (v.toList ++ V) out s' ∧ s'.node = s.node ∧ s'.obj = s.obj ∧
        s'.heap.time = s.heap.time + calls n) (Thrown fails cs h0 V out s)
      (.ok ()) (newVec M fails n s) := by
  unfold newVec calls
  split
  · exact ⟨by simpa using m, rfl, rfl, rfl⟩
  · rename_i hn
    split
    · rename_i hf
      exact ⟨⟨L, m.failed⟩, fun _ _ => rfl, _, n, m.time, hn, hf⟩
    · exact ⟨m.newVec, rfl, rfl, rfl⟩

theorem allocateTry_tracks (hc : 0 < cs) (m : Mem cs h0 L V out s) :
    Tracks (fun _ p s' => p ∉ out ∧ (∃ L', Mem cs h0 L' V (p :: out) s') ∧ s'.node = Function.update s.node p none ∧
        0 < s'.obj.index ∧ s'.heap.time * cs + s'.obj.index = s.heap.time * cs + s.obj.index + 1)
      (Thrown fails cs h0 V out s) (.ok ()) (allocateTry M fails cs s) := by
  unfold allocateTry
  split
  · rename_i h
    exact ⟨⟨L, m.failed⟩, fun _ _ => rfl, _, cs, m.time, by omega, h.2⟩
  · obtain ⟨p, s', L', e, hp, m', hn, h1, h2⟩ := m.allocate (M := M) hc
    rw [e]
    exact ⟨hp, ⟨L', m'⟩, hn, h1, h2⟩

/-- A tree was created.  Each branch took `b` vectors. -/
def Made (b cs : Nat) (h0 : Heap) (V : List Nat) (out : List Ptr) (s : NodeHeap β) (p : Ptr) (t : Tree β)
    (s' : NodeHeap β) : Prop :=
  (∃ f L, BuiltIn cs out s p t s' f ∧ Mem cs h0 L V (f ++ out) s') ∧ 0 < s'.obj.index ∧
    s'.heap.time * cs + s'.obj.index = s.heap.time * cs + s.obj.index + Spec.nodes t + b * Spec.branches t * cs

/-- Vectors come and go without effect on the nodes. -/
theorem BuiltIn.congr {f : List Ptr} {s1 s2 s3 : NodeHeap β} {p : Ptr} {t : Tree β} {s1' : NodeHeap β}
    (b : BuiltIn cs out s1 p t s2 f) (m : Mem cs h0 L V (f ++ out) s3) (e : s3.node = s2.node)
    (e1 : s1'.node = s1.node) : BuiltIn cs out s1' p t s3 f where
  repr := e ▸ b.repr
  nodup := b.nodup
  fresh := b.fresh
  same q hq := by rw [e, e1]; exact b.same q hq
  ok := m.alloc

theorem readNodeTry_tracks {α : Type} {P : Platform α} {branch : Codec β} (hc : 0 < cs) (fuel : Nat)
    (bytes : List Byte) (L : List Nat) (out : List Ptr) (s : NodeHeap β) (m : Mem cs h0 L V out s) :
    Tracks (fun v u s' => v.2 = u.2 ∧ Made 0 cs h0 V out s u.1 v.1 s') (Thrown fails cs h0 V out s)
      (readNode P branch fuel bytes).outcome (readNodeTry M fails cs P branch fuel bytes s) := by
  induction fuel generalizing bytes L out s with
  | zero => trivial
  | succ fuel ih =>
    unfold readNode readNodeTry
    rw [Load.outcome_bind]
    refine (allocateTry_tracks hc m).step (fun _ h => h) fun p s1 ⟨hp, ⟨L1, m1⟩, hn1, hi1, ht1⟩ => ?_
    have back : ∀ s2, Thrown fails cs h0 V (p :: out) s1 s2 → Thrown fails cs h0 V out s s2 := by
      rintro s2 ⟨⟨L2, m2⟩, h2, h3⟩
      refine ⟨⟨L2, m2.sub (List.sublist_cons_self _ _)⟩, fun q hq => ?_, h3⟩
      rw [h2 q (by simp [hq]), hn1, Function.update_of_ne (fun e : q = p => hp (e ▸ hq))]
    refine Tracks.read.bind (Q := fun _ => False) (fun _ h => h.elim) ?_
    rintro ⟨isLeaf, b1⟩ _ _ ⟨rfl, rfl⟩
    dsimp only
    cases isLeaf with
    | true =>
      simp only [if_true]
      rw [Load.outcome_bind]
      refine Tracks.read.bind (Q := fun _ => False) (fun _ h => h.elim) ?_
      rintro ⟨x, b2⟩ _ _ ⟨rfl, rfl⟩
      exact ⟨rfl, ⟨[p], L1, .leaf hp m1.alloc hn1, m1.set _ _⟩, hi1, by
        simpa [NodeHeap.set, Spec.nodes, Spec.branches] using ht1⟩
    | false =>
      simp only [Bool.false_eq_true, if_false]
      rw [Load.outcome_bind]
      refine Tracks.read.bind (Q := fun _ => False) (fun _ h => h.elim) ?_
      rintro ⟨x, b2⟩ _ _ ⟨rfl, rfl⟩
      dsimp only
      rw [Load.outcome_bind]
      refine (ih b2 L1 (p :: out) _ m1).bind back ?_
      rintro ⟨tl, b3⟩ ⟨l, b3'⟩ s2 ⟨rfl, ⟨fl, L2, bl, m2⟩, hi2, ht2⟩
      dsimp only at bl ⊢
      rw [Load.outcome_bind]
      refine (ih b3 L2 (fl ++ p :: out) s2 m2).bind ?_ ?_
      · rintro s3 ⟨⟨L3, m3⟩, h3, hf⟩
        refine back s3 ⟨⟨L3, m3.sub (List.sublist_append_right _ _)⟩, fun q hq => ?_, hf⟩
        rw [h3 q (by simp only [List.mem_append]; exact .inr hq), bl.same q hq]
      · rintro ⟨tr, b4⟩ ⟨r, b4'⟩ s3 ⟨rfl, ⟨fr, L3, br, m3⟩, hi3, ht3⟩
        dsimp only at br ht2 ht3 ⊢
        have bb := BuiltIn.branch (data := x) hp hn1 bl br
        refine ⟨rfl, ⟨_, L3, bb, ?_⟩, hi3, by
          simp only [NodeHeap.set, Spec.nodes, Spec.branches, Nat.zero_mul] at *; omega⟩
        have := m3.set p ⟨some l, some r, .branch x⟩
        refine this.permOut ?_
        refine (List.perm_append_comm_assoc fr fl (p :: out)).trans ?_
        have : (fl ++ (fr ++ p :: out)).Perm (p :: (fl ++ fr ++ out)) := by
          rw [← List.append_assoc]
          exact List.perm_middle
        exact this

variable {α : Type} [LinearOrder α] [Add α] [Sub α] {d : Nat}

theorem createNodeTry_tracks {dyn : Bool} {C : BuildCfg α d β} (hc : 0 < cs) (fuel : Nat) (depth : Int) (off : Nat)
    (seg : List Nat) (box : Box α d) (L V : List Nat) (out : List Ptr) (s : NodeHeap β) (m : Mem cs h0 L V out s) :
    Tracks (fun v u s' => v.2 = u.2 ∧ Made (calls (boxSize dyn d)) cs h0 V out s u.1 v.1 s')
      (Thrown fails cs h0 V out s) (createNode C fuel depth off seg box) (createNodeTry M fails cs dyn C fuel depth off seg box s) := by
  induction fuel generalizing depth off seg box L V out s with
  | zero => trivial
  | succ fuel ih =>
    unfold createNode createNodeTry
    refine (allocateTry_tracks hc m).step (fun _ h => h) fun p s1 ⟨hp, ⟨L1, m1⟩, hn1, hi1, ht1⟩ => ?_
    have back : ∀ s1' s2, s1'.node = s1.node → Thrown fails cs h0 V (p :: out) s1' s2 →
        Thrown fails cs h0 V out s s2 := by
      rintro s1' s2 e ⟨⟨L2, m2⟩, h2, h3⟩
      refine ⟨⟨L2, m2.sub (List.sublist_cons_self _ _)⟩, fun q hq => ?_, h3⟩
      rw [h2 q (by simp [hq]), e, hn1, Function.update_of_ne (fun e : q = p => hp (e ▸ hq))]
    by_cases hl : isLeaf C depth seg.length = true
    · rw [if_pos hl, if_pos hl]
      exact ⟨rfl, ⟨[p], L1, .leaf hp m1.alloc hn1, m1.set _ _⟩, hi1, by
        simpa [NodeHeap.set, Spec.nodes, Spec.branches] using ht1⟩
    · rw [if_neg hl, if_neg hl]
      refine Tracks.lift.bind (Q := fun _ => False) (fun _ h => h.elim) ?_
      rintro sp _ _ ⟨rfl, rfl⟩
      dsimp only
      refine (newVec_tracks _ m1).step (fun s2 h => back _ s2 rfl h) fun v s1v ⟨mv, hnv, hov, htv⟩ => ?_
      refine Tracks.atEnd (P := fun w u s' => w.2 = u.2 ∧
          Made (calls (boxSize dyn d)) cs h0 (v.toList ++ V) out s u.1 w.1 s')
        (Q := Thrown fails cs h0 (v.toList ++ V) out s) ?_ ?_ ?_
      · have back' : ∀ s2, Thrown fails cs h0 (v.toList ++ V) (p :: out) s1v s2 →
            Thrown fails cs h0 (v.toList ++ V) out s s2 := by
          rintro s2 ⟨⟨L2, m2⟩, h2, h3⟩
          refine ⟨⟨L2, m2.sub (List.sublist_cons_self _ _)⟩, fun q hq => ?_, h3⟩
          rw [h2 q (by simp [hq]), hnv, hn1, Function.update_of_ne (fun e : q = p => hp (e ▸ hq))]
        refine (ih _ _ _ _ L1 _ (p :: out) s1v mv).bind back' ?_
        rintro ⟨tl, segL, boxL⟩ ⟨l, sb⟩ s2 ⟨e2, ⟨fl, L2, bl, m2⟩, hi2, ht2⟩
        dsimp only at e2
        subst e2
        dsimp only at bl ⊢
        refine (ih _ _ _ _ L2 _ (fl ++ p :: out) s2 m2).bind ?_ ?_
        · rintro s3 ⟨⟨L3, m3⟩, h3, hf⟩
          refine back' s3 ⟨⟨L3, m3.sub (List.sublist_append_right _ _)⟩, fun q hq => ?_, hf⟩
          rw [h3 q (by simp only [List.mem_append]; exact .inr hq), bl.same q hq]
        · rintro ⟨tr, segR, boxR⟩ ⟨r, sb⟩ s3 ⟨e3, ⟨fr, L3, br, m3⟩, hi3, ht3⟩
          dsimp only at e3
          subst e3
          dsimp only at br ht2 ht3 ⊢
          have bb := BuiltIn.branch (data := C.setBranch boxL boxR sp.dim) hp (hnv.trans hn1) bl br
          refine ⟨rfl, ⟨_, L3, bb, ?_⟩, hi3, by
            rw [htv, hov] at ht2
            simp only [NodeHeap.set, Spec.nodes, Spec.branches, Nat.add_mul, Nat.mul_add, Nat.mul_one] at *
            omega⟩
          have := m3.set p ⟨some l, some r, .branch (C.setBranch boxL boxR sp.dim)⟩
          refine this.permOut ?_
          refine (List.perm_append_comm_assoc fr fl (p :: out)).trans ?_
          have : (fl ++ (fr ++ p :: out)).Perm (p :: (fl ++ fr ++ out)) := by
            rw [← List.append_assoc]
            exact List.perm_middle
          exact this
      · rintro s2 ⟨⟨L2, m2⟩, h2, hf⟩
        obtain ⟨s3, e3, m3, n3, -, -⟩ := m2.freeVec
        exact ⟨s3, e3, ⟨L2, m3⟩, fun q hq => by rw [n3, h2 q hq], hf⟩
      · rintro v2 u2 s2 ⟨e2, ⟨f, L2, b2, m2⟩, hi2, ht2⟩
        obtain ⟨s3, e3, m3, n3, o3, t3⟩ := m2.freeVec
        exact ⟨s3, e3, e2, ⟨f, L2, b2.congr m3 n3 rfl, m3⟩, by rw [o3]; exact hi2, by rw [o3, t3]; exact ht2⟩

/-! ## Whole trees -/

/-- The memory is as it was: the same addresses are allocated, the chains of the other allocators and the nodes `out`
are unchanged. -/
structure Restored (h0 : Heap) (node : Ptr → Option (Node β)) (out : List Ptr) (s : NodeHeap β) : Prop where
  live : ∀ a, a ∈ s.heap.live ↔ a ∈ h0.live
  prev : ∀ a ∈ h0.live, s.heap.prev a = h0.prev a
  node : ∀ q ∈ out, s.node q = node q

/-- Only the vectors `V` are left. -/
structure Rest (h0 : Heap) (node : Ptr → Option (Node β)) (out : List Ptr) (V : List Nat) (s : NodeHeap β) :
    Prop where
  live : ∀ a, a ∈ s.heap.live ↔ a ∈ h0.live ∨ a ∈ V
  nodup : V.Nodup
  apart : ∀ a ∈ V, a ∉ h0.live
  prev : ∀ a ∈ h0.live, s.heap.prev a = h0.prev a
  node : ∀ q ∈ out, s.node q = node q

theorem Rest.restored {node : Ptr → Option (Node β)} (r : Rest h0 node out [] s) : Restored h0 node out s :=
  ⟨fun a => by rw [r.live a]; simp, r.prev, r.node⟩

theorem Rest.permV {node : Ptr → Option (Node β)} {V' : List Nat} (r : Rest h0 node out V s) (hp : V.Perm V') :
    Rest h0 node out V' s :=
  ⟨fun a => by rw [r.live a, hp.mem_iff], hp.nodup_iff.1 r.nodup, fun a ha => r.apart a (hp.mem_iff.2 ha), r.prev,
    r.node⟩

theorem Rest.freeVec {node : Ptr → Option (Node β)} {v : Option Nat} (r : Rest h0 node out (v.toList ++ V) s) :
    ∃ s', freeVec v s = .ok s' ∧ Rest h0 node out V s' := by
  cases v with
  | none => exact ⟨s, rfl, by simpa using r⟩
  | some a =>
    have r' : Rest h0 node out (a :: V) s := by simpa using r
    have hn := List.nodup_cons.1 r'.nodup
    have h0a : a ∉ h0.live := r'.apart a (by simp)
    refine ⟨_, if_pos ((r'.live a).2 (by simp)), fun x => ?_, hn.2, fun x hx => r'.apart x (by simp [hx]), r'.prev,
      r'.node⟩
    simp only [Heap.delete, List.mem_filter, r'.live x, List.mem_cons, ne_eq, decide_not, Bool.not_eq_eq_eq_not,
      Bool.not_true, decide_eq_false_iff_not]
    constructor
    · tauto
    · rintro (h | h)
      · exact ⟨.inl h, fun e => h0a (e ▸ h)⟩
      · exact ⟨.inr (.inr h), fun e => hn.1 (e ▸ h)⟩

theorem Mem.rest {node : Ptr → Option (Node β)} (m : Mem cs h0 L V out s) (ho : ∀ p ∈ out, p.1 ∈ h0.live)
    (hn : ∀ q ∈ out, s.node q = node q) : ∃ s', Pico.freeNodes s = .ok s' ∧ Rest h0 node out V s' := by
  obtain ⟨s', e, e1, h1, h2, h3, h4, -⟩ := m.freeNodes ho
  exact ⟨s', e, h1, h2, h3, h4, fun q hq => by rw [e1]; exact hn q hq⟩

/-- A tree in memory: it was created from the memory `h0`, and destroying it restores this memory. -/
def Stored (cs : Nat) (h0 : Heap) (node : Ptr → Option (Node β)) (out : List Ptr) (T : TreeMem) (t : Tree β)
    (s' : NodeHeap β) : Prop :=
  (∃ f, BuiltIn cs out ⟨h0, .new cs, node⟩ T.root t s' f) ∧
    ∃ s'', freeTree T s' = .ok s'' ∧ Restored h0 node out s''

/-- The same with the chunks and vectors of the tree. -/
def Held (cs : Nat) (h0 : Heap) (node : Ptr → Option (Node β)) (out : List Ptr) (T : TreeMem) (t : Tree β)
    (s' : NodeHeap β) : Prop :=
  ∃ f L, BuiltIn cs out ⟨h0, .new cs, node⟩ T.root t s' f ∧
    Mem cs h0 L (T.box.toList ++ (T.indices.toList ++ [])) (f ++ out) s'

theorem mem_new {node : Ptr → Option (Node β)} (hu : AllocOk cs h0 (.new cs) out) :
    Mem cs h0 [] [] out ⟨h0, .new cs, node⟩ where
  alloc := hu
  chain := .nil
  nodup := List.nodup_nil
  live a := by simp
  apart := by simp
  place p hp := .inl (hu.live p hp).1
  chunk h := absurd h (lt_irrefl _)
  prev _ _ := rfl
  time := le_rfl

theorem stored_of_mem {node : Ptr → Option (Node β)} {f : List Ptr} {T : TreeMem} {t : Tree β}
    (hu : AllocOk cs h0 (.new cs) out) (b : BuiltIn cs out ⟨h0, .new cs, node⟩ T.root t s f)
    (m : Mem cs h0 L (T.box.toList ++ (T.indices.toList ++ [])) (f ++ out) s) : Stored cs h0 node out T t s := by
  refine ⟨⟨f, b⟩, ?_⟩
  obtain ⟨s1, e1, r1⟩ := (m.sub (List.sublist_append_right f out)).rest (fun p hp => (hu.live p hp).1) b.same
  obtain ⟨s2, e2, r2⟩ := r1.freeVec
  obtain ⟨s3, e3, r3⟩ := r2.freeVec
  refine ⟨s3, ?_, r3.restored⟩
  rw [freeTree, e1]
  simp only [Outcome.bind, e2, e3]

theorem Held.stored {node : Ptr → Option (Node β)} {T : TreeMem} {t : Tree β} (hu : AllocOk cs h0 (.new cs) out)
    (h : Held cs h0 node out T t s) : Stored cs h0 node out T t s := by
  obtain ⟨f, L, b, m⟩ := h
  exact stored_of_mem hu b m

theorem readArray_length {τ : Type} (c : Codec τ) (n : Nat) (bytes : List Byte) (l : List τ) (rest : List Byte)
    (h : readArray c n bytes = .ok l rest) : l.length = n := by
  induction n generalizing bytes l rest with
  | zero =>
    simp only [readArray, Load.ok.injEq] at h
    rw [← h.1]
    rfl
  | succ n ih =>
    rw [readArray] at h
    cases h1 : readValue c bytes with
    | ok x b1 =>
      rw [h1] at h
      simp only [Load.bind] at h
      cases h2 : readArray c n b1 with
      | ok l' b2 =>
        rw [h2] at h
        simp only [Load.ok.injEq] at h
        rw [← h.1, List.length_cons, ih b1 l' b2 h2]
      | _ => rw [h2] at h; cases h
    | _ => rw [h1] at h; cases h

theorem chunks_eq {base k m time index : Nat} (hc : 0 < cs) (hi : 0 < index) (hi' : index ≤ cs)
    (h : time * cs + index = base * cs + cs + m + k * cs) : time = base + k + (m + cs - 1) / cs := by
  have h1 : base + k ≤ time := by
    by_contra hlt
    have h2 : (time + 1) * cs ≤ (base + k) * cs := Nat.mul_le_mul_right _ (by omega)
    rw [Nat.add_mul, Nat.add_mul] at h2
    omega
  obtain ⟨j, rfl⟩ := Nat.exists_eq_add_of_le h1
  rw [Nat.add_mul, Nat.add_mul] at h
  have h3 : m + cs - 1 = j * cs + (index - 1) := by omega
  rw [h3, Nat.add_comm (j * cs), Nat.add_mul_div_right _ _ hc, Nat.div_eq_of_lt (by omega)]
  omega

omit [LinearOrder α] [Add α] [Sub α] in
theorem loadTry_tracks_held {dyn : Bool} {P : Platform α} {branch : Codec β} {node : Ptr → Option (Node β)} (hc : 0 < cs)
    (fuel : Nat) (bytes : List Byte) (hu : AllocOk cs h0 (.new cs) out) :
    Tracks (fun v u s' => v.2 = u.2 ∧ v.1.indices = u.1.2.1 ∧ v.1.rootBox = u.1.2.2 ∧
        Held cs h0 node out u.1.1 v.1.root s' ∧
        s'.heap.time = h0.time + calls v.1.indices.length + calls (boxSize dyn d) + (Spec.nodes v.1.root + cs - 1) / cs)
      (fun s' => Restored h0 node out s' ∧ Failed fails h0)
      (loadStatic P branch d fuel bytes).outcome (loadTry M fails cs dyn P branch d fuel bytes h0 node) := by
  unfold loadStatic loadTry
  rw [Load.outcome_bind]
  refine Tracks.read.bind (Q := fun _ => False) (fun _ h => h.elim) ?_
  rintro ⟨_, b1⟩ _ _ ⟨rfl, rfl⟩
  dsimp only
  have m0 : Mem cs h0 [] [] out ⟨h0, .new cs, node⟩ := mem_new hu
  have ho : ∀ p ∈ out, p.1 ∈ h0.live := fun p hp => (hu.live p hp).1
  -- the allocator is still empty
  have clean : ∀ {V : List Nat} {s : NodeHeap β}, Mem cs h0 [] V out s → s.node = node → Rest h0 node out V s := by
    intro V s m e
    exact ⟨fun a => by rw [m.live a]; simp, by simpa using m.nodup, fun a ha => m.apart a (by simpa using ha), m.prev,
      fun q _ => by rw [e]⟩
  have newVec0 : ∀ (n : Nat) {V : List Nat} {s : NodeHeap β}, Mem cs h0 [] V out s → s.node = node →
      Tracks (fun _ v s' => Mem cs h0 [] (v.toList ++ V) out s' ∧ s'.node = node ∧ s'.obj = s.obj ∧
          s'.heap.time = s.heap.time + calls n)
        (fun s' => Rest h0 node out V s' ∧ Failed fails h0) (.ok ()) (newVec M fails n s) := by
    intro n V s m e
    unfold newVec calls
    split
    · exact ⟨by simpa using m, e, rfl, rfl⟩
    · rename_i hn
      split
      · rename_i hf
        exact ⟨clean m.failed e, _, n, m.time, hn, hf⟩
      · exact ⟨m.newVec, e, rfl, rfl⟩
  refine (newVec0 (boxSize dyn d) m0 rfl).step (fun s h => ⟨h.1.restored, h.2⟩) fun vb s1 ⟨m1, n1, o1, t1⟩ => ?_
  refine Tracks.onThrow (Q := fun s' => Rest h0 node out (vb.toList ++ []) s' ∧ Failed fails h0) ?_
    fun s ⟨r, hf⟩ => ?_
  swap
  · obtain ⟨s', e, r'⟩ := r.freeVec
    exact ⟨s', e, r'.restored, hf⟩
  unfold readData readDataTry readVector readVectorTry
  rw [Load.outcome_bind, Load.outcome_bind]
  have assoc : ∀ (x : Outcome (Nat × List Byte)) (f : Nat × List Byte → Outcome (List Nat × List Byte))
      (g : List Nat × List Byte → Outcome (TreeData α d β × List Byte)),
      (x.bind f).bind g = x.bind fun v => (f v).bind g := by
    intro x f g
    cases x <;> rfl
  have assoc' : ∀ {τ υ φ : Type} (x : Try (NodeHeap β) τ) (f : τ → NodeHeap β → Try (NodeHeap β) υ)
      (g : υ → NodeHeap β → Try (NodeHeap β) φ), (x.bind f).bind g = x.bind fun v s => (f v s).bind g := by
    intro τ υ φ x f g
    cases x <;> rfl
  rw [assoc, assoc']
  refine Tracks.read.bind (Q := fun _ => False) (fun _ h => h.elim) ?_
  rintro ⟨n, b2⟩ _ _ ⟨rfl, rfl⟩
  dsimp only
  rw [assoc']
  refine (newVec0 n m1 n1).step (fun s h => h) fun vi s2 ⟨m2, n2, o2, t2⟩ => ?_
  rw [assoc']
  have hlen : ∀ l b3, readArray P.index n b2 = .ok l b3 → l.length = n := readArray_length P.index n b2
  refine Tracks.bind (P := fun v u s' => v = u ∧ s' = s2 ∧ v.1.length = n) (Q := fun _ => False) ?_ (fun _ h => h.elim) ?_
  · cases hra : readArray P.index n b2 with
    | ok l b3 => exact ⟨rfl, rfl, hlen l b3 hra⟩
    | _ => trivial
  rintro ⟨l, b3⟩ _ _ ⟨rfl, rfl, hl⟩
  dsimp only at hl
  simp only [Try.bind]
  refine Tracks.onThrow (Q := fun s' => (∃ L, Mem cs h0 L (vi.toList ++ (vb.toList ++ [])) out s') ∧
      (∀ q ∈ out, s'.node q = node q) ∧ Failed fails h0) ?_ ?_
  · rw [Load.outcome_bind]
    refine Tracks.read.bind (Q := fun _ => False) (fun _ h => h.elim) ?_
    rintro ⟨mn, b4⟩ _ _ ⟨rfl, rfl⟩
    dsimp only
    rw [Load.outcome_bind]
    refine Tracks.read.bind (Q := fun _ => False) (fun _ h => h.elim) ?_
    rintro ⟨mx, b5⟩ _ _ ⟨rfl, rfl⟩
    dsimp only
    rw [Load.outcome_bind]
    refine (readNodeTry_tracks hc fuel b5 [] out _ m2).bind ?_ ?_
    · rintro s3 ⟨h1, h2, h3⟩
      exact ⟨h1, fun q hq => by rw [h2 q hq, n2], h3⟩
    · rintro ⟨t, b6⟩ ⟨p, b6'⟩ s3 ⟨e, ⟨f, L3, b, m3⟩, hi3, ht3⟩
      dsimp only at e b ht3 ⊢
      subst e
      refine ⟨rfl, rfl, rfl, ⟨f, L3, b.congr (s3 := s3) m3 rfl n2.symm, ?_⟩, ?_⟩
      swap
      · rw [o2, o1, t2, t1] at ht3
        rw [hl]
        have := chunks_eq (k := 0) (base := h0.time + calls (boxSize dyn d) + calls n) hc hi3 m3.alloc.index
          (by simpa [Obj.new] using ht3)
        dsimp only
        omega
      refine m3.permV ?_
      simpa using List.perm_append_comm
  · rintro s3 ⟨⟨L3, m3⟩, h2, h3⟩
    obtain ⟨s4, e4, r4⟩ := m3.rest ho h2
    obtain ⟨s5, e5, r5⟩ := r4.freeVec
    exact ⟨s5, by simp only [e4, Outcome.bind, e5], r5, h3⟩

omit [LinearOrder α] [Add α] [Sub α] in
theorem loadTry_tracks {dyn : Bool} {P : Platform α} {branch : Codec β} {node : Ptr → Option (Node β)} (hc : 0 < cs)
    (fuel : Nat) (bytes : List Byte) (hu : AllocOk cs h0 (.new cs) out) :
    Tracks (fun v u s' => v.2 = u.2 ∧ v.1.indices = u.1.2.1 ∧ v.1.rootBox = u.1.2.2 ∧
        Stored cs h0 node out u.1.1 v.1.root s' ∧
        s'.heap.time = h0.time + calls v.1.indices.length + calls (boxSize dyn d) + (Spec.nodes v.1.root + cs - 1) / cs)
      (fun s' => Restored h0 node out s' ∧ Failed fails h0)
      (loadStatic P branch d fuel bytes).outcome (loadTry M fails cs dyn P branch d fuel bytes h0 node) :=
  (loadTry_tracks_held hc fuel bytes hu).mono (fun _ _ _ h => ⟨h.1, h.2.1, h.2.2.1, h.2.2.2.1.stored hu, h.2.2.2.2⟩)
    fun _ h => h

theorem buildTry_tracks_held {dyn : Bool} {C : BuildCfg α d β} {node : Ptr → Option (Node β)} (hc : 0 < cs) (n : Nat)
    (bounds : Bounds α d) (fuel : Nat) (hu : AllocOk cs h0 (.new cs) out) :
    Tracks (fun v u s' => v.indices = u.2.1 ∧ v.rootBox = u.2.2 ∧ Held cs h0 node out u.1 v.root s' ∧
        s'.heap.time = h0.time + calls n + calls (boxSize dyn d) * (Spec.branches v.root + 3) +
          (Spec.nodes v.root + cs - 1) / cs)
      (fun s' => Restored h0 node out s' ∧ Failed fails h0)
      (buildTree C n bounds fuel) (buildTry M fails cs dyn C n bounds fuel h0 node) := by
  unfold buildTree buildTry createRootTry
  dsimp only
  have m0 : Mem cs h0 [] [] out ⟨h0, .new cs, node⟩ := mem_new hu
  have ho : ∀ p ∈ out, p.1 ∈ h0.live := fun p hp => (hu.live p hp).1
  have clean : ∀ {V : List Nat} {s : NodeHeap β}, Mem cs h0 [] V out s → s.node = node → Rest h0 node out V s := by
    intro V s m e
    exact ⟨fun a => by rw [m.live a]; simp, by simpa using m.nodup, fun a ha => m.apart a (by simpa using ha), m.prev,
      fun q _ => by rw [e]⟩
  have newVec0 : ∀ (n : Nat) {V : List Nat} {s : NodeHeap β}, Mem cs h0 [] V out s → s.node = node →
      Tracks (fun _ v s' => Mem cs h0 [] (v.toList ++ V) out s' ∧ s'.node = node ∧ s'.obj = s.obj ∧
          s'.heap.time = s.heap.time + calls n)
        (fun s' => Rest h0 node out V s' ∧ Failed fails h0) (.ok ()) (newVec M fails n s) := by
    intro n V s m e
    unfold newVec calls
    split
    · exact ⟨by simpa using m, e, rfl, rfl⟩
    · rename_i hn
      split
      · rename_i hf
        exact ⟨clean m.failed e, _, n, m.time, hn, hf⟩
      · exact ⟨m.newVec, e, rfl, rfl⟩
  refine (newVec0 n m0 rfl).step (fun s h => ⟨h.1.restored, h.2⟩) fun vi s1 ⟨m1, n1, o1, t1⟩ => ?_
  refine Tracks.onThrow (Q := fun s' => Rest h0 node out (vi.toList ++ []) s' ∧ Failed fails h0) ?_
    fun s ⟨r, hf⟩ => ?_
  swap
  · obtain ⟨s', e, r'⟩ := r.freeVec
    exact ⟨s', e, r'.restored, hf⟩
  refine (newVec0 (boxSize dyn d) m1 n1).step (fun s h => h) fun vb s2 ⟨m2, n2, o2, t2⟩ => ?_
  refine Tracks.atEnd (Q := fun s' => Rest h0 node out (vb.toList ++ (vi.toList ++ [])) s' ∧ Failed fails h0)
    (P := fun v u s' => v.indices = u.2.1 ∧ v.rootBox = u.2.2 ∧ u.1.indices = vi ∧
      s'.heap.time = h0.time + calls n + calls (boxSize dyn d) * (Spec.branches v.root + 3) +
        (Spec.nodes v.root + cs - 1) / cs ∧ ∃ f L,
      BuiltIn cs out ⟨h0, .new cs, node⟩ u.1.root v.root s' f ∧
        Mem cs h0 L (u.1.box.toList ++ (vb.toList ++ (vi.toList ++ []))) (f ++ out) s') ?_ ?_ ?_
  · refine Tracks.onThrow (Q := fun s' => (∃ L, Mem cs h0 L (vb.toList ++ (vi.toList ++ [])) out s') ∧
        (∀ q ∈ out, s'.node q = node q) ∧ Failed fails h0) ?_ ?_
    · refine Tracks.bind (P := fun v u s' => v.2 = u.2 ∧ (∃ f L, BuiltIn cs out ⟨h0, .new cs, node⟩ u.1 v.1 s' f ∧
            Mem cs h0 L (vb.toList ++ (vi.toList ++ [])) (f ++ out) s') ∧
          s'.heap.time = h0.time + calls n + calls (boxSize dyn d) * (Spec.branches v.1 + 2) +
            (Spec.nodes v.1 + cs - 1) / cs)
        (Q := Thrown fails cs h0 (vb.toList ++ (vi.toList ++ [])) out s2) ?_ ?_ ?_
      · refine (newVec_tracks _ m2).step (fun _ h => h) fun vc s3 ⟨m3, n3, o3, t3⟩ => ?_
        refine (createNodeTry_tracks hc fuel 0 0 _ _ _ _ out s3 m3).atEnd ?_ ?_
        · rintro s4 ⟨⟨L4, m4⟩, h4, hf⟩
          obtain ⟨s5, e5, m5, n5, -, -⟩ := m4.freeVec
          exact ⟨s5, e5, ⟨L4, m5⟩, fun q hq => by rw [n5, h4 q hq, n3], hf⟩
        · rintro v u s4 ⟨e, ⟨f, L4, b4, m4⟩, hi4, ht4⟩
          obtain ⟨s5, e5, m5, n5, o5, t5⟩ := m4.freeVec
          refine ⟨s5, e5, e, ⟨f, L4, b4.congr m5 n5 (by rw [n3, n2]), m5⟩, ?_⟩
          rw [o3, o2, o1, t3, t2, t1] at ht4
          rw [t5]
          refine (chunks_eq hc hi4 m4.alloc.index (by simpa [Obj.new] using ht4)).trans ?_
          rw [Nat.mul_add]
          omega
      · rintro s3 ⟨h1, h2, h3⟩
        exact ⟨h1, fun q hq => by rw [h2 q hq, n2], h3⟩
      · rintro ⟨t, seg, box⟩ ⟨p, sb⟩ s4 ⟨e, ⟨f, L4, b4, m4⟩, ht4⟩
        dsimp only at e b4 ht4
        subst e
        dsimp only
        refine (newVec_tracks _ m4).step ?_ fun vm s5 ⟨m5, n5, _, t5⟩ => ?_
        · rintro s5 ⟨⟨L5, m5⟩, h5, hf⟩
          exact ⟨⟨L5, m5.sub (List.sublist_append_right _ _)⟩, fun q hq => by
            rw [h5 q (by simp [hq]), b4.same q hq], hf⟩
        · refine ⟨rfl, rfl, rfl, ?_, f, L4, b4.congr m5 n5 rfl, m5⟩
          dsimp only
          rw [t5, ht4]
          simp only [Nat.mul_add]
          omega
    · rintro s3 ⟨⟨L3, m3⟩, h2, h3⟩
      obtain ⟨s4, e4, r4⟩ := m3.rest ho h2
      exact ⟨s4, e4, r4, h3⟩
  · rintro s3 ⟨r, hf⟩
    obtain ⟨s4, e4, r4⟩ := r.freeVec
    exact ⟨s4, e4, r4, hf⟩
  · rintro v ⟨⟨i, bx, p⟩, idx, rb⟩ s3 ⟨h1, h2, h3, ht, f, L, b, m⟩
    dsimp only at h1 h2 h3 b m
    subst h3
    have m' := m.permV (V' := vb.toList ++ (bx.toList ++ (i.toList ++ [])))
      (List.perm_append_comm_assoc _ _ _)
    obtain ⟨s4, e4, m4, n4, -, t4⟩ := m'.freeVec
    exact ⟨s4, e4, h1, h2, ⟨f, L, b.congr m4 n4 rfl, m4⟩, by rw [t4]; exact ht⟩

theorem buildTry_tracks {dyn : Bool} {C : BuildCfg α d β} {node : Ptr → Option (Node β)} (hc : 0 < cs) (n : Nat)
    (bounds : Bounds α d) (fuel : Nat) (hu : AllocOk cs h0 (.new cs) out) :
    Tracks (fun v u s' => v.indices = u.2.1 ∧ v.rootBox = u.2.2 ∧ Stored cs h0 node out u.1 v.root s' ∧
        s'.heap.time = h0.time + calls n + calls (boxSize dyn d) * (Spec.branches v.root + 3) +
          (Spec.nodes v.root + cs - 1) / cs)
      (fun s' => Restored h0 node out s' ∧ Failed fails h0)
      (buildTree C n bounds fuel) (buildTry M fails cs dyn C n bounds fuel h0 node) :=
  (buildTry_tracks_held hc n bounds fuel hu).mono (fun _ _ _ h => ⟨h.1, h.2.1, h.2.2.1.stored hu, h.2.2.2⟩)
    fun _ h => h

end

end Pico
