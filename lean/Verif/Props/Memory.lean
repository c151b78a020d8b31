import Verif.Proof.MemoryOps
import Verif.SpecTree
import Verif.Ref

/-!
# C31, C32, C55: node memory

All theorems hold for every behaviour of `new` that returns unused addresses (`Malloc`), and every chunk
size; the code uses 256.
-/

namespace Pico.Props

open Pico Spec

section
variable (M : Malloc) (cs : Nat)

/-- C31 and C32, for well behaved programs: any sequence of constructions, allocations, moves and
destructions of any number of allocators, which never allocates from a moved-from allocator and never
assigns to an allocator that owns memory.  Nothing is undefined: no memory is used after it was freed
and nothing is freed twice.  Each `allocate` returns an object.  All objects that are owned by an
existing allocator are pairwise different and in allocated memory. -/
theorem c31_no_alias_partial (hc : 0 < cs) (ops : List MemOp)
    (hw : WellBehaved (fun _ => .absent) ops) :
    ∃ s rs, MemState.empty.run M cs ops = .ok (s, rs) ∧
      List.Forall₂ (fun (op : MemOp) (r : Option Ptr) => r.isSome ↔ ∃ a, op = .allocate a) ops rs ∧
      ((ownershipAfter [] ops rs).map Prod.fst).Nodup ∧
      ∀ x ∈ ownershipAfter [] ops rs, x.1.1 ∈ s.heap.live ∧ x.1.2 < cs ∧
        statesAfter (fun _ => .absent) ops x.2 ≠ .absent := by
  obtain ⟨s, rs, L, e, hr, h⟩ := (memInv_empty cs).run (M := M) hc ops hw
  refine ⟨s, rs, e, hr, h.ownNodup, fun x hx => ?_⟩
  have hx' := h.owned x hx
  refine ⟨h.live _ _ hx'.1, hx'.2.1, fun ha => ?_⟩
  exact h.owner_ne hx (h.gone _ ((h.absent _).1 ha)) rfl

/-- C31 and C32, for well behaved programs: when the last allocator is destroyed, all memory is freed. -/
theorem c31_freed_partial (hc : 0 < cs) (ops : List MemOp)
    (hw : WellBehaved (fun _ => .absent) ops)
    (hd : ∀ a, statesAfter (fun _ => .absent) ops a = .absent) :
    ∃ s rs, MemState.empty.run M cs ops = .ok (s, rs) ∧ s.heap.live = [] := by
  obtain ⟨s, rs, L, e, _, h⟩ := (memInv_empty cs).run (M := M) hc ops hw
  refine ⟨s, rs, e, List.eq_nil_iff_forall_not_mem.2 fun x hx => ?_⟩
  obtain ⟨a, ha⟩ := h.cover x hx
  rw [h.gone a ((h.absent a).1 (hd a))] at ha
  exact absurd ha (by simp)

theorem release_not_oof (fuel : Nat) (h : Heap) (head : Option Nat) (hf : h.live.length < fuel) :
    h.release fuel head ≠ .oof := by
  induction fuel generalizing h head with
  | zero => omega
  | succ fuel ih =>
    cases head with
    | none => simp [Heap.release]
    | some a =>
      rw [Heap.release]
      split
      · rename_i ha
        refine ih _ _ ?_
        have : (h.live.filter (· ≠ a)).length < h.live.length :=
          List.length_filter_lt_length_iff_exists.2 ⟨a, ha, by simp⟩
        exact Nat.lt_of_lt_of_le this (by omega)
      · simp

theorem step_not_oof (s : MemState) (op : MemOp) : s.step M cs op ≠ .oof := by
  cases op with
  | construct a =>
    unfold MemState.step
    dsimp only
    split <;> simp
  | allocate a =>
    unfold MemState.step
    dsimp only
    split
    · simp
    · rename_i o _
      unfold Obj.allocate Obj.take
      split
      · simp [Outcome.bind]
      · split <;> simp [Outcome.bind]
  | moveConstruct a b =>
    unfold MemState.step
    dsimp only
    split <;> simp
  | moveAssign a b =>
    unfold MemState.step
    dsimp only
    split
    · split
      · simp
      · split <;> simp
    · simp
  | destroy a =>
    unfold MemState.step
    dsimp only
    split
    · simp
    · rename_i o _
      have := release_not_oof (s.heap.live.length + 1) s.heap o.head (Nat.lt_succ_self _)
      cases h : s.heap.release (s.heap.live.length + 1) o.head with
      | ok h' => simp [Outcome.bind]
      | ub => simp [Outcome.bind]
      | oof => exact absurd h this

/-- C31 for all programs, also those that go on using a moved-from allocator, from any state of the memory: every
operation ends.  A list of chunks that leads into freed memory, or back into itself, is undefined behaviour after
finitely many steps, since each chunk is deleted on the way. -/
theorem c31_ends (ops : List MemOp) (s : MemState) : s.run M cs ops ≠ .oof := by
  induction ops generalizing s with
  | nil => simp [MemState.run]
  | cons op ops ih =>
    rw [MemState.run]
    have := step_not_oof M cs s op
    cases h : s.step M cs op with
    | ub => simp [Outcome.bind]
    | oof => exact absurd h this
    | ok x =>
      obtain ⟨s', r⟩ := x
      have := ih s'
      simp only [Outcome.bind]
      cases h2 : s'.run M cs ops with
      | ub => simp
      | oof => exact absurd h2 this
      | ok y => simp

/-- C31: a chunk that is owned twice is freed twice, which is undefined: a state in which two allocators hold the same
list, as a copy (which the code forbids, memory.hpp:39-41) would produce. -/
theorem c31_held_twice (a b : Nat) (hab : a ≠ b) (s : MemState) (o : Obj) (c : Nat) (ha : s.objs a = some o)
    (hb : s.objs b = some o) (hc : o.head = some c) (hl : c ∈ s.heap.live) (hp : s.heap.prev c = none) :
    s.run M cs [.destroy a, .destroy b] = .ub := by
  have h1 : s.heap.release (s.heap.live.length + 1) (some c) = .ok (s.heap.delete c) := by
    rw [Heap.release, if_pos hl, hp]
    cases s.heap.live.length <;> rfl
  simp [MemState.run, MemState.step, ha, hb, hc, h1, Outcome.bind, hab.symm, Heap.release,
    Heap.delete]

/-- C31 and C32 are false for programs that go on using a moved-from allocator: it hands out the memory
of its successor, for every `new` and every chunk size above 1. -/
theorem c31_false (hc : 1 < cs) :
    ∃ s p q, MemState.empty.run M cs
      [.construct 0, .allocate 0, .moveConstruct 1 0, .allocate 0, .allocate 1] =
        .ok (s, [none, some p, none, some q, some q]) := by
  have h0 : 0 < cs := by omega
  have h2 : (1 : Nat) ≠ cs := by omega
  simp [MemState.run, MemState.step, MemState.empty, Heap.empty, Outcome.bind, Obj.new, Obj.allocate,
    Obj.refill, Obj.take, Heap.allocate, hc, h0, h2]

/-- C32 is false: move assignment loses the memory of the left-hand side.  After all allocators are
destroyed, a chunk is still allocated, for every `new` and every chunk size. -/
theorem c32_false (hc : 0 < cs) :
    ∃ s rs, MemState.empty.run M cs [.construct 0, .allocate 0, .construct 1, .allocate 1,
      .moveAssign 0 1, .destroy 0, .destroy 1] = .ok (s, rs) ∧
      (∀ a, s.objs a = none) ∧ s.heap.live.length = 1 := by
  have hf : M.pick 1 [M.pick 0 []] ≠ M.pick 0 [] := fun h => M.fresh 1 [M.pick 0 []] (by rw [h]; simp)
  have hf' := Ne.symm hf
  simp [MemState.run, MemState.step, MemState.empty, Heap.empty, Outcome.bind, Obj.new, Obj.allocate,
    Obj.refill, Obj.take, Heap.allocate, Heap.release, Heap.delete, hc, hf, hf',
    Function.update_apply]
  intro a h1 h0
  simp [h1, h0]

/-- C32 is false: assigning an allocator to itself loses its memory. -/
theorem c32_self_false (hc : 0 < cs) :
    ∃ s rs, MemState.empty.run M cs [.construct 0, .allocate 0, .moveAssign 0 0, .destroy 0] =
      .ok (s, rs) ∧ (∀ a, s.objs a = none) ∧ s.heap.live.length = 1 := by
  simp [MemState.run, MemState.step, MemState.empty, Heap.empty, Outcome.bind, Obj.new, Obj.allocate,
    Obj.refill, Obj.take, Heap.allocate, Heap.release, hc]

/-- C32 is false: after `tree1 = std::move(tree2)` the allocator of `tree2` hands out memory that belongs
to `tree1`; once `tree1` is destroyed this is a use of freed memory. -/
theorem c32_alias_false (hc : 1 < cs) :
    (∃ s p q, MemState.empty.run M cs [.construct 0, .construct 1, .allocate 1, .moveAssign 0 1,
      .allocate 0, .allocate 1] = .ok (s, [none, none, some p, none, some q, some q])) ∧
    MemState.empty.run M cs [.construct 0, .construct 1, .allocate 1, .moveAssign 0 1, .destroy 0,
      .allocate 1] = .ub := by
  have h0 : 0 < cs := by omega
  have h2 : (1 : Nat) ≠ cs := by omega
  constructor <;> simp [MemState.run, MemState.step, MemState.empty, Heap.empty, Outcome.bind, Obj.new, Obj.allocate,
    Obj.refill, Obj.take, Heap.allocate, Heap.release, Heap.delete, hc, h0, h2]

end

/-! ## C55 -/

section
variable {β : Type}

/-- A memory in which the nodes `other` are in use by other trees. -/
structure InUse (cs : Nat) (h : Heap) (other : List Ptr) : Prop where
  live : ∀ p ∈ other, p.1 ∈ h.live ∧ p.2 < cs
  nodup : other.Nodup

theorem InUse.allocOk {cs : Nat} {h : Heap} {other : List Ptr} (hu : InUse cs h other) :
    AllocOk cs h (.new cs) other where
  index := le_rfl
  chunk h := absurd h (lt_irrefl _)
  live := hu.live
  below _ _ h := absurd h (lt_irrefl _)
  nodup := hu.nodup

/-- The nodes from `p` in memory are the tree `t`: every traversal that follows the pointers sees `t`;
the nodes are pairwise different (no sharing, no cycles), as many as `t` has, allocated, none of them is a
node of another tree, and the nodes of the other trees are what they were. -/
def IsTree (cs : Nat) (other : List Ptr) (s : NodeHeap β) (p : Ptr) (t : Tree β) (s' : NodeHeap β) :
    Prop :=
  (∀ fuel, nodes t ≤ fuel → NodeHeap.tree s'.node fuel p = some t) ∧
  (∃ f : List Ptr, f.Nodup ∧ f.length = nodes t ∧ p ∈ f ∧
    ∀ q ∈ f, q.1 ∈ s'.heap.live ∧ q.2 < cs ∧ q ∉ other) ∧
  ∀ q ∈ other, s'.node q = s.node q ∧ q.1 ∈ s'.heap.live

theorem Repr.length {node : Ptr → Option (Node β)} {p : Ptr} {t : Tree β} {f : List Ptr}
    (h : Repr node p t f) : f.length = nodes t := by
  induction h with
  | leaf => rfl
  | branch _ _ _ ih1 ih2 => simp [nodes, ih1, ih2]

theorem isTree_of_builtIn {cs : Nat} {other f : List Ptr} {s s' : NodeHeap β} {p : Ptr} {t : Tree β}
    (h : BuiltIn cs other s p t s' f) : IsTree cs other s p t s' := by
  refine ⟨fun fuel hf => h.repr.tree (by rw [Repr.length h.repr]; exact hf),
    ⟨f, h.nodup, Repr.length h.repr, h.repr.head_mem, fun q hq => ?_⟩, fun q hq => ⟨h.same q hq, ?_⟩⟩
  · have := h.ok.live q (by simp [hq])
    exact ⟨this.1, this.2, h.fresh q hq⟩
  · exact (h.ok.live q (by simp [hq])).1

/-- C55 for loading: whenever the functional loader accepts, the nodes that `read_node` creates in
memory with a new allocator form the same tree, and the same bytes are consumed. -/
theorem c55_load {α : Type} (M : Malloc) (cs : Nat) (hc : 0 < cs) (P : Platform α) (branch : Codec β)
    (fuel : Nat) (bytes rest : List Byte) (t : Tree β) (h : Heap) (node : Ptr → Option (Node β))
    (other : List Ptr) (hu : InUse cs h other) (ht : readNode P branch fuel bytes = .ok t rest) :
    ∃ p s', readNodeIn M cs P branch fuel bytes ⟨h, .new cs, node⟩ = .ok (p, s') rest ∧
      IsTree cs other ⟨h, .new cs, node⟩ p t s' := by
  have := readNodeIn_ok (M := M) (P := P) (branch := branch) hc fuel bytes ⟨h, .new cs, node⟩ other
    hu.allocOk
  rw [ht] at this
  obtain ⟨p, s', f, e, hb⟩ := this
  exact ⟨p, s', e, isTree_of_builtIn hb⟩

variable {α : Type} [LinearOrder α] [Add α] [Sub α] {d : Nat}

/-- C55 for building: whenever the functional builder finishes with the tree `D`, so does the builder that
works in memory, with the same order of indices, and its nodes form the tree `D.root`. -/
theorem c55_build (M : Malloc) (cs : Nat) (hc : 0 < cs) (C : BuildCfg α d β) (n : Nat)
    (bounds : Bounds α d) (fuel : Nat) (D : TreeData α d β) (h : Heap)
    (node : Ptr → Option (Node β)) (other : List Ptr) (hu : InUse cs h other)
    (hD : buildTree C n bounds fuel = .ok D) :
    ∃ p box s', createNodeIn M cs C fuel 0 0 (List.range n) D.rootBox ⟨h, .new cs, node⟩ =
        .ok (p, D.indices, box, s') ∧
      IsTree cs other ⟨h, .new cs, node⟩ p D.root s' := by
  unfold buildTree at hD
  have := createNodeIn_ok (M := M) (C := C) hc fuel 0 0 (List.range n)
    (boxFromBounds C.N C.pts n bounds) ⟨h, .new cs, node⟩ other hu.allocOk
  cases hcn : createNode C fuel 0 0 (List.range n) (boxFromBounds C.N C.pts n bounds) with
  | ub => simp [hcn, Outcome.bind] at hD
  | oof => simp [hcn, Outcome.bind] at hD
  | ok res =>
    obtain ⟨t, seg, box⟩ := res
    simp only [hcn, Outcome.bind, Outcome.ok.injEq] at hD
    subst hD
    rw [hcn] at this
    obtain ⟨p, s', f, e, hb⟩ := this
    exact ⟨p, box, s', e, isTree_of_builtIn hb⟩

/-- C55: and the builder that works in memory fails exactly when the functional one does. -/
theorem c55_build_fails (M : Malloc) (cs : Nat) (hc : 0 < cs) (C : BuildCfg α d β) (n : Nat)
    (bounds : Bounds α d) (fuel : Nat) (h : Heap) (node : Ptr → Option (Node β)) :
    (buildTree C n bounds fuel = .ub ↔ createNodeIn M cs C fuel 0 0 (List.range n)
      (boxFromBounds C.N C.pts n bounds) ⟨h, .new cs, node⟩ = .ub) ∧
    (buildTree C n bounds fuel = .oof ↔ createNodeIn M cs C fuel 0 0 (List.range n)
      (boxFromBounds C.N C.pts n bounds) ⟨h, .new cs, node⟩ = .oof) := by
  have := createNodeIn_ok (M := M) (C := C) hc fuel 0 0 (List.range n)
    (boxFromBounds C.N C.pts n bounds) ⟨h, .new cs, node⟩ [] (allocOk_new cs h)
  unfold buildTree
  cases hcn : createNode C fuel 0 0 (List.range n) (boxFromBounds C.N C.pts n bounds) with
  | ub =>
    rw [hcn] at this
    simp only at this
    simp [Outcome.bind, hcn, this]
  | oof =>
    rw [hcn] at this
    simp only at this
    simp [Outcome.bind, hcn, this]
  | ok res =>
    rw [hcn] at this
    obtain ⟨p, s', f, e, -⟩ := this
    simp [Outcome.bind, hcn, e]

end

/-! ## Concrete cases -/

/-- A `new` that takes the smallest address above all used ones. -/
def bump : Malloc where
  pick _ l := l.foldr max 0 + 1
  fresh t l h := by
    have key : ∀ l : List Nat, ∀ x ∈ l, x ≤ l.foldr max 0 := by
      intro l
      induction l with
      | nil => simp
      | cons y l ih =>
        intro x hx
        rcases List.mem_cons.1 hx with rfl | hx
        · exact le_max_left _ _
        · exact (ih x hx).trans (le_max_right _ _)
    have := key l _ h
    omega

/-- A well behaved program: two allocators, five allocations with chunks of two, a move, destruction of
both.  The objects are pairwise different and no memory is left. -/
example : WellBehaved (fun _ => .absent) [.construct 0, .allocate 0, .allocate 0, .allocate 0, .construct 1,
    .moveAssign 1 0, .allocate 1, .moveConstruct 2 1, .allocate 2, .destroy 0, .destroy 1, .destroy 2] := by
  simp [WellBehaved, Allowed, next, Status.afterMove]

example : ∃ s, MemState.empty.run bump 2 [.construct 0, .allocate 0, .allocate 0, .allocate 0, .construct 1,
    .moveAssign 1 0, .allocate 1, .moveConstruct 2 1, .allocate 2] = .ok (s,
    [none, some (1, 0), some (1, 1), some (2, 0), none, none, some (2, 1), none, some (3, 0)]) :=
  ⟨_, rfl⟩

end Pico.Props
