import Verif.Proof.Exhausted
import Verif.Props.Memory

/-!
# C113: memory that runs out while a tree is built or loaded

For every behaviour of `new` (`Malloc`), every pattern of failures (`fails t n`: the `t`-th call fails when `n` objects
are requested), every chunk size, dimensions known at compile time or at run time, and any other trees in memory.
-/

namespace Pico.Props

open Pico Spec

section
variable {β : Type}

/-- The other trees: the allocators that own the chunks in memory can still be destroyed, and delete the same chunks. -/
theorem c113_others {h0 : Heap} {node : Ptr → Option (Node β)} {other : List Ptr} {s : NodeHeap β}
    (r : Restored h0 node other s) (head : Option Nat) (l : List Nat) (hl : l.Nodup) (hch : Chain h0 head l) :
    ∃ h', s.heap.release l.length head = .ok h' ∧ ∀ a, a ∈ h'.live ↔ a ∈ h0.live ∧ a ∉ l := by
  have hch' : Chain s.heap head l :=
    hch.congr (fun x hx => (r.live x).2 (hch.mem_live x hx)) fun x hx => r.prev x (hch.mem_live x hx)
  obtain ⟨h', e, h1, -⟩ := Heap.release_ok hch' hl le_rfl
  refine ⟨h', e, fun a => ?_⟩
  rw [h1, List.mem_filter, r.live a]
  simp

variable {α : Type} [LinearOrder α] [Add α] [Sub α] {d : Nat}
variable (M : Malloc) (fails : Nat → Nat → Bool) (cs : Nat) (hc : 0 < cs) (dyn : Bool) (C : BuildCfg α d β) (n : Nat)
  (bounds : Bounds α d) (fuel : Nat) (h : Heap) (node : Ptr → Option (Node β)) (other : List Ptr)
  (hu : InUse cs h other)

include hc hu in
/-- C113, building: if an exception leaves the constructor, a call of `new` failed since it was entered, and the memory
is as it was before: nothing that was allocated is left, nothing else was freed, no node of another tree was changed. -/
theorem c113_build_throws (s' : NodeHeap β) (he : buildTry M fails cs dyn C n bounds fuel h node = .throws s') :
    (∃ t k, h.time ≤ t ∧ k ≠ 0 ∧ fails t k = true) ∧ (∀ a, a ∈ s'.heap.live ↔ a ∈ h.live) ∧
      (∀ a ∈ h.live, s'.heap.prev a = h.prev a) ∧ ∀ q ∈ other, s'.node q = node q := by
  have := buildTry_tracks (M := M) (fails := fails) (dyn := dyn) (C := C) (node := node) hc n bounds fuel hu.allocOk
  rw [he] at this
  have : Restored h node other s' ∧ Failed fails h := by
    cases hb : buildTree C n bounds fuel <;> rw [hb] at this <;> exact this
  exact ⟨this.2, this.1.live, this.1.prev, this.1.node⟩

include hc hu in
/-- C113, building: if the builder that knows nothing of memory ends with the tree `D`, so does the one that allocates
memory, unless it throws.  The nodes in memory form the tree `D.root`, and destroying the tree gives all memory back. -/
theorem c113_build (D : TreeData α d β) (hD : buildTree C n bounds fuel = .ok D) :
    (∃ s', buildTry M fails cs dyn C n bounds fuel h node = .throws s') ∨
    ∃ T s' s'', buildTry M fails cs dyn C n bounds fuel h node = .ok (T, D.indices, D.rootBox) s' ∧
      IsTree cs other ⟨h, .new cs, node⟩ T.root D.root s' ∧
      freeTree T s' = .ok s'' ∧ (∀ a, a ∈ s''.heap.live ↔ a ∈ h.live) ∧
      (∀ a ∈ h.live, s''.heap.prev a = h.prev a) ∧ ∀ q ∈ other, s''.node q = node q := by
  have := buildTry_tracks (M := M) (fails := fails) (dyn := dyn) (C := C) (node := node) hc n bounds fuel hu.allocOk
  rw [hD] at this
  cases he : buildTry M fails cs dyn C n bounds fuel h node with
  | ub => rw [he] at this; exact this.elim
  | oof => rw [he] at this; exact this.elim
  | throws s' => exact .inl ⟨s', rfl⟩
  | ok u s' =>
    rw [he] at this
    obtain ⟨T, idx, rb⟩ := u
    obtain ⟨h1, h2, ⟨⟨f, b⟩, s'', e, r⟩, ht⟩ := this
    dsimp only at h1 h2 b e
    subst h1 h2
    exact .inr ⟨T, s', s'', rfl, isTree_of_builtIn b, e, r.live, r.prev, r.node⟩

include hc hu in
/-- C113, building: a result that is not an exception is the one of the builder that knows nothing of memory. -/
theorem c113_build_same :
    (∀ u s', buildTry M fails cs dyn C n bounds fuel h node = .ok u s' →
      ∃ D, buildTree C n bounds fuel = .ok D ∧ u.2 = (D.indices, D.rootBox)) ∧
    (buildTry M fails cs dyn C n bounds fuel h node = .ub → buildTree C n bounds fuel = .ub) ∧
    (buildTry M fails cs dyn C n bounds fuel h node = .oof → buildTree C n bounds fuel = .oof) := by
  have := buildTry_tracks (M := M) (fails := fails) (dyn := dyn) (C := C) (node := node) hc n bounds fuel hu.allocOk
  refine ⟨fun u s' e => ?_, fun e => ?_, fun e => ?_⟩ <;> rw [e] at this <;>
    cases hb : buildTree C n bounds fuel <;> rw [hb] at this <;> first | exact this.elim | skip
  · rename_i D
    obtain ⟨h1, h2, -⟩ := this
    exact ⟨D, rfl, by rw [h1, h2]⟩

include hc hu in
/-- C113, building: without a failing `new` nothing is thrown. -/
theorem c113_build_enough (hf : ∀ t k, h.time ≤ t → fails t k = false) (s' : NodeHeap β) :
    buildTry M fails cs dyn C n bounds fuel h node ≠ .throws s' := by
  intro he
  obtain ⟨⟨t, k, ht, -, e⟩, -⟩ := c113_build_throws M fails cs hc dyn C n bounds fuel h node other hu s' he
  rw [hf t k ht] at e
  exact absurd e (by decide)

include hc hu in
/-- C113, the number of calls of `new`: one for the indices (none without points); as many as needed for the chunks of
nodes; and with a dimension that is only known at run time one for the box of the root, one for its working copy, one
for the copy in the result, and one for each branch. -/
theorem c113_build_calls (D : TreeData α d β) (hD : buildTree C n bounds fuel = .ok D)
    (u : TreeMem × List Nat × Box α d) (s' : NodeHeap β)
    (he : buildTry M fails cs dyn C n bounds fuel h node = .ok u s') :
    s'.heap.time = h.time + (if n = 0 then 0 else 1) + (nodes D.root + cs - 1) / cs +
      if dyn = true ∧ d ≠ 0 then branches D.root + 3 else 0 := by
  have := buildTry_tracks (M := M) (fails := fails) (dyn := dyn) (C := C) (node := node) hc n bounds fuel hu.allocOk
  rw [hD, he] at this
  have ht := this.2.2.2
  rw [ht]
  unfold calls boxSize
  cases dyn with
  | false => simp
  | true =>
    by_cases hd : d = 0
    · simp [hd]
    · have : ¬d * 2 = 0 := by omega
      simp [hd]; omega

/-- C113, building: if there is no memory at all, the exception is thrown (there is at least one point). -/
theorem c113_build_none (hn : n ≠ 0) (hf : ∀ t k, fails t k = true) :
    ∃ s', buildTry M fails cs dyn C n bounds fuel h node = .throws s' := by
  refine ⟨NodeHeap.failed ⟨h, .new cs, node⟩, ?_⟩
  unfold buildTry newVec
  rw [if_neg hn]
  simp only [hf, if_true, Try.bind]

variable (P : Platform α) (branch : Codec β) (bytes : List Byte)

omit [LinearOrder α] [Add α] [Sub α] in
include hc hu in
/-- C113, loading any bytes, also those of a damaged file that asks for too much memory: if an exception leaves `load`,
a call of `new` failed since it was entered, and the memory is as it was before. -/
theorem c113_load_throws (s' : NodeHeap β) (he : loadTry M fails cs dyn P branch d fuel bytes h node = .throws s') :
    (∃ t k, h.time ≤ t ∧ k ≠ 0 ∧ fails t k = true) ∧ (∀ a, a ∈ s'.heap.live ↔ a ∈ h.live) ∧
      (∀ a ∈ h.live, s'.heap.prev a = h.prev a) ∧ ∀ q ∈ other, s'.node q = node q := by
  have := loadTry_tracks (M := M) (fails := fails) (dyn := dyn) (P := P) (branch := branch) (d := d) (node := node) hc
    fuel bytes hu.allocOk
  rw [he] at this
  have : Restored h node other s' ∧ Failed fails h := by
    cases hb : (loadStatic P branch d fuel bytes).outcome <;> rw [hb] at this <;> exact this
  exact ⟨this.2, this.1.live, this.1.prev, this.1.node⟩

omit [LinearOrder α] [Add α] [Sub α] in
include hc hu in
/-- C113, loading: if the loader that knows nothing of memory accepts the bytes and returns the tree `D`, so does the one
that allocates memory, unless it throws.  The nodes in memory form the tree `D.root`, and destroying the tree gives all
memory back. -/
theorem c113_load (D : TreeData α d β) (rest : List Byte) (hD : loadStatic P branch d fuel bytes = .ok D rest) :
    (∃ s', loadTry M fails cs dyn P branch d fuel bytes h node = .throws s') ∨
    ∃ T s' s'', loadTry M fails cs dyn P branch d fuel bytes h node = .ok ((T, D.indices, D.rootBox), rest) s' ∧
      IsTree cs other ⟨h, .new cs, node⟩ T.root D.root s' ∧
      freeTree T s' = .ok s'' ∧ (∀ a, a ∈ s''.heap.live ↔ a ∈ h.live) ∧
      (∀ a ∈ h.live, s''.heap.prev a = h.prev a) ∧ ∀ q ∈ other, s''.node q = node q := by
  have := loadTry_tracks (M := M) (fails := fails) (dyn := dyn) (P := P) (branch := branch) (d := d) (node := node) hc
    fuel bytes hu.allocOk
  rw [hD] at this
  cases he : loadTry M fails cs dyn P branch d fuel bytes h node with
  | ub => rw [he] at this; exact this.elim
  | oof => rw [he] at this; exact this.elim
  | throws s' => exact .inl ⟨s', rfl⟩
  | ok u s' =>
    rw [he] at this
    obtain ⟨⟨T, idx, rb⟩, rest'⟩ := u
    obtain ⟨h0, h1, h2, ⟨⟨f, b⟩, s'', e, r⟩, ht⟩ := this
    dsimp only at h0 h1 h2 b e
    subst h0 h1 h2
    exact .inr ⟨T, s', s'', rfl, isTree_of_builtIn b, e, r.live, r.prev, r.node⟩

omit [LinearOrder α] [Add α] [Sub α] in
include hc hu in
/-- C113, loading: without a failing `new` nothing is thrown, and only bytes that the loader without memory accepts lead
to a tree. -/
theorem c113_load_enough :
    ((∀ t k, h.time ≤ t → fails t k = false) → ∀ s', loadTry M fails cs dyn P branch d fuel bytes h node ≠ .throws s') ∧
    ∀ u rest s', loadTry M fails cs dyn P branch d fuel bytes h node = .ok (u, rest) s' →
      ∃ D, loadStatic P branch d fuel bytes = .ok D rest ∧ u.2 = (D.indices, D.rootBox) := by
  refine ⟨fun hf s' he => ?_, fun u rest s' he => ?_⟩
  · obtain ⟨⟨t, k, ht, -, e⟩, -⟩ := c113_load_throws M fails cs hc dyn fuel h node other hu P branch bytes s' he
    rw [hf t k ht] at e
    exact absurd e (by decide)
  · have := loadTry_tracks (M := M) (fails := fails) (dyn := dyn) (P := P) (branch := branch) (d := d) (node := node)
      hc fuel bytes hu.allocOk
    rw [he] at this
    cases hb : loadStatic P branch d fuel bytes with
    | ok D rest' =>
      rw [hb] at this
      obtain ⟨h0, h1, h2, -⟩ := this
      dsimp only at h0 h1 h2
      subst h0
      exact ⟨D, rfl, by rw [h1, h2]⟩
    | _ => rw [hb] at this; exact this.elim

omit [LinearOrder α] [Add α] [Sub α] in
include hc hu in
/-- C113, the number of calls of `new` when a tree is loaded. -/
theorem c113_load_calls (D : TreeData α d β) (rest : List Byte) (hD : loadStatic P branch d fuel bytes = .ok D rest)
    (u : (TreeMem × List Nat × Box α d) × List Byte) (s' : NodeHeap β)
    (he : loadTry M fails cs dyn P branch d fuel bytes h node = .ok u s') :
    s'.heap.time = h.time + (if D.indices = [] then 0 else 1) + (nodes D.root + cs - 1) / cs +
      if dyn = true ∧ d ≠ 0 then 1 else 0 := by
  have := loadTry_tracks (M := M) (fails := fails) (dyn := dyn) (P := P) (branch := branch) (d := d) (node := node) hc
    fuel bytes hu.allocOk
  rw [hD, he] at this
  have ht := this.2.2.2.2
  rw [ht]
  unfold calls boxSize
  simp only [List.length_eq_zero_iff]
  cases dyn with
  | false => simp
  | true =>
    by_cases hd : d = 0
    · simp [hd]
    · have : ¬d * 2 = 0 := by omega
      simp [hd]; omega

end

/-! ## Concrete cases -/

/-- Whether building throws, the number of calls of `new`, and the number of addresses that are allocated then. -/
def summary {β τ : Type} : Try (NodeHeap β) τ → Option (Bool × Nat × Nat)
  | .ok _ s => some (false, s.heap.time, s.heap.live.length)
  | .throws s => some (true, s.heap.time, s.heap.live.length)
  | .ub => none
  | .oof => none

/-- Five points, dimension known at run time, chunks of two nodes, one point per leaf: 9 nodes.  With enough memory
1 + 5 + (4 + 3) calls of `new`; 1 + 5 + 1 addresses are in use afterwards. -/
example : summary (buildTry (β := Branch1 ℤ 2) bump (fun _ _ => false) 2 true
    (KdTree.cfg (euclideanTag ℤ 2) Ref.intNum Ref.pts5 (Ref.optsSliding ℤ 2)) 5 (Ref.optsSliding ℤ 2).bounds 10 .empty fun _ => none) =
    some (false, 13, 7) := by
  decide +kernel

/-- The same when the sixth call fails, or the one for a chunk of nodes, or the last one, of the copy of the box in the
result: nothing is left. -/
example : [5, 3, 12].map (fun k => summary (buildTry (β := Branch1 ℤ 2) bump (fun t _ => t == k) 2 true
    (KdTree.cfg (euclideanTag ℤ 2) Ref.intNum Ref.pts5 (Ref.optsSliding ℤ 2)) 5 (Ref.optsSliding ℤ 2).bounds 10 .empty fun _ => none)) =
    [some (true, 6, 0), some (true, 4, 0), some (true, 13, 0)] := by
  decide +kernel

end Pico.Props
