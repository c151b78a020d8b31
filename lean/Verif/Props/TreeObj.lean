import Verif.Proof.TreeObj
import Verif.Props.Memory

/-!
# C128: trees that are moved

For all programs that build, load, move and destroy any number of objects of the class `kd_tree` (`Reach`), every
behaviour of `new` (also one that fails), every chunk size, dimensions known at compile time or at run time (`dyn`), and
every kind of point set (`left` tells what is left of one that is moved).
-/

namespace Pico.Props

open Pico Spec

section
variable {α : Type} [LinearOrder α] [Add α] [Sub α] {d : Nat} {β S : Type}
variable {M : Malloc} {fails : Nat → Nat → Bool} {cs : Nat} {dyn : Bool} {left : S → S} {P : Platform α}
  {branch : Codec β} {w : World α d β S} {st : Nat → Has α d β S} {lost : List Nat}

/-- C128: nothing is undefined: no memory is freed twice, none is used that was freed.  Only a constructor throws, and
only if a call of `new` failed since it was entered. -/
theorem c128_defined_partial (hc : 0 < cs) (h : Reach M fails cs dyn left P branch w st lost) (op : TreeOp α d β S)
    (ok : MayDo P branch st op) :
    ∃ w' thrown, w.step M fails cs dyn left P branch op = .ok (w', thrown) ∧
      (thrown = true → ((∃ a sp C n bounds fuel, op = .build a sp C n bounds fuel) ∨
          ∃ a sp fuel bytes, op = .load a sp fuel bytes) ∧
        ∃ t k, w.heap.time ≤ t ∧ k ≠ 0 ∧ fails t k = true) := by
  obtain ⟨O, i⟩ := Reach.inv hc h
  obtain ⟨w', t, O', e, -, ht⟩ := i.step (M := M) (fails := fails) (dyn := dyn) (left := left) hc ok
  refine ⟨w', t, e, fun h1 => ⟨?_, (ht h1).2⟩⟩
  have h2 := (ht h1).1
  cases op with
  | build a sp C n bounds fuel => exact .inl ⟨_, _, _, _, _, _, rfl⟩
  | load a sp fuel bytes => exact .inr ⟨_, _, _, _, rfl⟩
  | _ => simp [TreeOp.constructs] at h2

/-- C128: an object that holds a tree is that tree for all who read it, wherever it came from, whatever happened to the
other objects, and however often memory was freed and allocated again. -/
theorem c128_holds_partial (hc : 0 < cs) (h : Reach M fails cs dyn left P branch w st lost) (a : Nat)
    (D : TreeData α d β) (sp : S) (ha : st a = .holds D sp) (fuel : Nat) (hf : nodes D.root ≤ fuel) :
    w.look fuel a = some (D, sp) := by
  obtain ⟨O, i⟩ := Reach.inv hc h
  have hold : ∀ x ∈ O a, x ∈ w.heap.live := fun x hx => (i.live x).2 (.inr ⟨a, hx⟩)
  have g := i.good a
  rw [ha] at g
  obtain ⟨o, L, f, ho, hO, -, hr, -, hq, h1, h2, h3⟩ := g
  rw [hO] at hold
  have hr' : Repr (fun p => if p.1 ∈ w.heap.live then w.node p else none) o.root D.root f :=
    hr.congr fun q hqf => if_pos (hold _ (List.mem_append_left _ (hq q hqf).1))
  unfold World.look
  rw [ho]
  dsimp only
  rw [if_pos fun x hx => hold x (List.mem_append_right _ hx), h2,
    hr'.tree (by rw [Repr.length hr']; exact hf), h1, h3]

/-- C128: memory.  When no object is left, exactly the chunks that were lost are still allocated: all vectors were
freed, and all chunks of trees that were not assigned to. -/
theorem c128_freed_partial (hc : 0 < cs) (h : Reach M fails cs dyn left P branch w st lost)
    (hd : ∀ a, st a = .absent) (x : Nat) : x ∈ w.heap.live ↔ x ∈ lost := by
  obtain ⟨O, i⟩ := Reach.inv hc h
  rw [i.live x]
  refine or_iff_left ?_
  rintro ⟨a, ha⟩
  have g := i.good a
  rw [hd a] at g
  rw [g.2] at ha
  exact absurd ha (by simp)

/-- C128: what was lost stays allocated for ever. -/
theorem c128_lost (hc : 0 < cs) (h : Reach M fails cs dyn left P branch w st lost) : ∀ x ∈ lost, x ∈ w.heap.live := by
  obtain ⟨O, i⟩ := Reach.inv hc h
  exact fun x hx => (i.live x).2 (.inl hx)

/-- C128: assigning to an object whose contents were moved away loses nothing. -/
theorem c128_assign_moved (hc : 0 < cs) (h : Reach M fails cs dyn left P branch w st lost) (a b : Nat)
    (ha : st a = .moved) : losesChunks w (.moveAssign a b) = [] := by
  obtain ⟨O, i⟩ := Reach.inv hc h
  have g := i.good a
  rw [ha] at g
  obtain ⟨o, ho, -, h1, -⟩ := g
  simp [losesChunks, ho, h1, Heap.chunks]

/-- C128 is false for assignments to an object that holds a tree: all its chunks are lost, at least as many as its nodes
need. -/
theorem c128_assign_false (hc : 0 < cs) (h : Reach M fails cs dyn left P branch w st lost) (a b : Nat)
    (D : TreeData α d β) (sp : S) (ha : st a = .holds D sp) :
    (nodes D.root + cs - 1) / cs ≤ (losesChunks w (.moveAssign a b)).length ∧
      losesChunks w (.moveAssign a b) ≠ [] := by
  obtain ⟨O, i⟩ := Reach.inv hc h
  have g := i.good a
  rw [ha] at g
  obtain ⟨o, L, f, ho, hO, hch, hr, hn, hq, -⟩ := g
  have e : losesChunks w (.moveAssign a b) = L := by
    simp only [losesChunks, ho]
    exact i.chunks hO hch
  have hlen : f.length ≤ L.length * cs := by
    have := (List.subperm_of_subset (l₂ := L ×ˢ List.range cs) hn fun q hqf => by
      obtain ⟨x, k⟩ := q
      simpa using hq _ hqf).length_le
    rwa [List.length_product, List.length_range] at this
  rw [Repr.length hr] at hlen
  rw [e]
  refine ⟨?_, fun h0 => ?_⟩
  · refine Nat.lt_succ_iff.1 (Nat.div_lt_of_lt_mul ?_)
    rw [Nat.mul_succ, Nat.mul_comm]
    omega
  · have := (hq _ hr.head_mem).1
    rw [h0] at this
    exact absurd this (by simp)

/-- C128: `std::swap` (three moves and a destruction) exchanges two objects, loses nothing and changes no other object;
also if it is called with the same object twice. -/
theorem c128_swap (hc : 0 < cs) (h : Reach M fails cs dyn left P branch w st lost) (a b c : Nat)
    (ha : st a ≠ .absent) (hb : st b ≠ .absent) (hcc : st c = .absent) :
    ∃ w' st', w.run M fails cs dyn left P branch
        [.moveConstruct c a, .moveAssign a b, .moveAssign b c, .destroy c] = .ok (w', [false, false, false, false]) ∧
      Reach M fails cs dyn left P branch w' st' lost ∧ st' a = st b ∧ st' b = st a ∧
      ∀ e, e ≠ a → e ≠ b → st' e = st e := by
  have hca : c ≠ a := fun e => ha (e ▸ hcc)
  have hcb : c ≠ b := fun e => hb (e ▸ hcc)
  -- one operation that does not construct and loses nothing
  have go : ∀ {w : World α d β S} {st : Nat → Has α d β S} (_ : Reach M fails cs dyn left P branch w st lost)
      (op : TreeOp α d β S), op.constructs = false → MayDo P branch st op → losesChunks w op = [] →
      ∃ w', w.step M fails cs dyn left P branch op = .ok (w', false) ∧
        Reach M fails cs dyn left P branch w' (after P branch st false op) lost := by
    intro w st h op h1 h2 h3
    obtain ⟨O, i⟩ := Reach.inv hc h
    obtain ⟨w', t, O', e, -, ht⟩ := i.step (M := M) (fails := fails) (dyn := dyn) (left := left) hc h2
    have ht' : t = false := by
      cases t with
      | false => rfl
      | true =>
        have := (ht rfl).1
        rw [h1] at this
        cases this
    subst ht'
    refine ⟨w', e, ?_⟩
    have := Reach.step h h2 e
    rwa [h3, List.nil_append] at this
  obtain ⟨w1, e1, r1⟩ := go h (.moveConstruct c a) rfl ⟨hcc, ha⟩ rfl
  simp only [after] at r1
  have v1c : Function.update (Function.update st a .moved) c (st a) c = st a := by simp
  have v1a : Function.update (Function.update st a .moved) c (st a) a = .moved := by simp [Ne.symm hca]
  have v1 : ∀ e, e ≠ c → e ≠ a → Function.update (Function.update st a .moved) c (st a) e = st e := by
    intro e h1 h2
    simp [h1, h2]
  generalize Function.update (Function.update st a .moved) c (st a) = st1 at r1 v1c v1a v1
  have hb1 : st1 b ≠ .absent := by
    by_cases hba : b = a
    · subst hba
      rw [v1a]
      simp
    · rw [v1 b (Ne.symm hcb) hba]
      exact hb
  obtain ⟨w2, e2, r2⟩ := go r1 (.moveAssign a b) rfl ⟨by rw [v1a]; simp, hb1, fun _ => v1a⟩
    (c128_assign_moved hc r1 a b v1a)
  simp only [after] at r2
  have v2a : Function.update (Function.update st1 b .moved) a (st1 b) a = st1 b := by simp
  have v2b : Function.update (Function.update st1 b .moved) a (st1 b) b = .moved := by
    by_cases hba : b = a
    · subst hba
      simp [v1a]
    · simp [hba]
  have v2 : ∀ e, e ≠ a → e ≠ b → Function.update (Function.update st1 b .moved) a (st1 b) e = st1 e := by
    intro e h1 h2
    simp [h1, h2]
  generalize Function.update (Function.update st1 b .moved) a (st1 b) = st2 at r2 v2a v2b v2
  have v2c : st2 c = st a := by rw [v2 c hca hcb, v1c]
  obtain ⟨w3, e3, r3⟩ := go r2 (.moveAssign b c) rfl ⟨by rw [v2b]; simp, by rw [v2c]; exact ha, fun _ => v2b⟩
    (c128_assign_moved hc r2 b c v2b)
  simp only [after] at r3
  have hc3 : Function.update (Function.update st2 c .moved) b (st2 c) c = .moved := by simp [hcb]
  obtain ⟨w4, e4, r4⟩ := go r3 (.destroy c) rfl (by simp only [MayDo]; rw [hc3]; simp) rfl
  simp only [after] at r4
  refine ⟨w4, _, ?_, r4, ?_, ?_, fun e hea heb => ?_⟩
  · simp [World.run, e1, e2, e3, e4, Outcome.bind]
  · rw [Function.update_of_ne (Ne.symm hca)]
    by_cases hba : b = a
    · subst hba
      simp [v2c]
    · rw [Function.update_of_ne (Ne.symm hba), Function.update_of_ne (Ne.symm hca), v2a,
        v1 b (Ne.symm hcb) hba]
  · rw [Function.update_of_ne (Ne.symm hcb), Function.update_self, v2c]
  · by_cases hec : e = c
    · subst hec
      rw [Function.update_self, hcc]
    · rw [Function.update_of_ne hec, Function.update_of_ne heb, Function.update_of_ne hec, v2 e hea heb,
        v1 e hec hea]

/-- C128 is false for the source of a move.  With a dimension known at compile time it still has the box and the nodes of
the tree (which belong to the new object now), but no indices, so that the ranges of its leaves lie outside of them;
with one known at run time the coordinates of the box are gone, too.  -/
theorem c128_source_false (hc : 0 < cs) (h : Reach M fails cs dyn left P branch w st lost) (a b : Nat)
    (D : TreeData α d β) (sp : S) (ha : st a = .absent) (hb : st b = .holds D sp) (fuel : Nat)
    (hf : nodes D.root ≤ fuel) :
    ∃ w', w.step M fails cs dyn left P branch (.moveConstruct a b) = .ok (w', false) ∧
      w'.look fuel b = if dyn then none else some (⟨[], D.rootBox, D.root⟩, left sp) := by
  obtain ⟨O, i⟩ := Reach.inv hc h
  have hold : ∀ x ∈ O b, x ∈ w.heap.live := fun x hx => (i.live x).2 (.inr ⟨b, hx⟩)
  have g := i.good b
  rw [hb] at g
  obtain ⟨o, L, f, ho, hO, -, hr, -, hq, h1, h2, h3⟩ := g
  rw [hO] at hold
  have hn : w.trees a = none := by
    have := i.good a
    rw [ha] at this
    exact this.1
  have hab : b ≠ a := by
    rintro rfl
    rw [ha] at hb
    cases hb
  have hr' : Repr (fun p => if p.1 ∈ w.heap.live then w.node p else none) o.root D.root f :=
    hr.congr fun q hqf => if_pos (hold _ (List.mem_append_left _ (hq q hqf).1))
  refine ⟨{ w with trees := Function.update (Function.update w.trees b (some (o.movedFrom dyn left))) a (some o) },
    by simp only [World.step, hn, ho], ?_⟩
  unfold World.look
  simp only [Function.update_of_ne hab, Function.update_self, TreeObj.movedFrom]
  rw [hr'.tree (by rw [Repr.length hr']; exact hf), h2, h3]
  cases dyn <;> simp

/-- C128 is false for the source of a move: when the new object is destroyed, the nodes are gone, and the pointer to the
root dangles. -/
theorem c128_dangling_false (hc : 0 < cs) (h : Reach M fails cs dyn left P branch w st lost) (a b : Nat)
    (D : TreeData α d β) (sp : S) (ha : st a = .absent) (hb : st b = .holds D sp) :
    ∃ w', w.run M fails cs dyn left P branch [.moveConstruct a b, .destroy a] = .ok (w', [false, false]) ∧
      ∃ o, w'.trees b = some o ∧ o.root.1 ∉ w'.heap.live ∧ ∀ fuel, w'.look fuel b = none := by
  obtain ⟨O, i⟩ := Reach.inv hc h
  have g := i.good b
  rw [hb] at g
  obtain ⟨o, L, f, ho, hO, hch, hr, -, hq, -⟩ := g
  have hn : w.trees a = none := by
    have := i.good a
    rw [ha] at this
    exact this.1
  have hab : b ≠ a := by
    rintro rfl
    rw [ha] at hb
    cases hb
  have hOa : O a = [] ++ [] := by
    have := i.good a
    rw [ha] at this
    exact this.2
  have i1 := i.transfer (Ne.symm hab) (by rw [hb]; simp) ho hOa (h' := w.heap) rfl (by simp)
    (o' := o.movedFrom dyn left) rfl rfl rfl
  obtain ⟨o1, s, ho1, e, hnode, hl, -⟩ := i1.destroy (a := a) (by simp [hb])
  simp only [Function.update_self, Option.some.injEq] at ho1 hl
  subst ho1
  have hroot : o.root.1 ∉ s.heap.live := fun hm =>
    ((hl _).1 hm).2 (by rw [hO]; exact List.mem_append_left _ (hq _ hr.head_mem).1)
  refine ⟨⟨s.heap, s.node, Function.update (Function.update (Function.update w.trees b
    (some (o.movedFrom dyn left))) a (some o)) a none⟩, by
      simp only [World.run, World.step, hn, ho, Outcome.bind, Function.update_self, e], o.movedFrom dyn left, ?_, hroot,
    fun fuel => ?_⟩
  · simp [hab]
  · unfold World.look
    simp only [Function.update_of_ne hab, Function.update_self]
    have : NodeHeap.tree (fun p => if p.1 ∈ s.heap.live then s.node p else none) fuel
        (o.movedFrom dyn left).root = none := by
      cases fuel with
      | zero => rfl
      | succ fuel =>
        simp [NodeHeap.tree, TreeObj.movedFrom, hroot]
    rw [this]
    split
    · split
      · rename_i h
        cases h
      · rfl
    · rfl

/-- C128 is false for a tree that is assigned to itself: it has no indices afterwards, and nobody owns its nodes. -/
theorem c128_self_false (hc : 0 < cs) (h : Reach M fails cs dyn left P branch w st lost) (a : Nat)
    (D : TreeData α d β) (sp : S) (ha : st a = .holds D sp) (fuel : Nat) (hf : nodes D.root ≤ fuel) :
    ∃ w', w.step M fails cs dyn left P branch (.moveAssign a a) = .ok (w', false) ∧
      (w'.look fuel a = if dyn then none else some (⟨[], D.rootBox, D.root⟩, left sp)) ∧
      ∃ o, w'.trees a = some o ∧ o.alloc.head = none := by
  obtain ⟨O, i⟩ := Reach.inv hc h
  have hold : ∀ x ∈ O a, x ∈ w.heap.live := fun x hx => (i.live x).2 (.inr ⟨a, hx⟩)
  have g := i.good a
  rw [ha] at g
  obtain ⟨o, L, f, ho, hO, -, hr, -, hq, h1, h2, h3⟩ := g
  have hn := i.nodup a
  rw [hO] at hold hn
  have hn' := List.nodup_append'.1 hn
  obtain ⟨h', e, hp, hl⟩ := World.moveAssign_self (dyn := dyn) (left := left) ho
    (fun x hx => hold x (List.mem_append_right _ hx)) hn'.2.1
  have hr' : Repr (fun p => if p.1 ∈ h'.live then w.node p else none) o.root D.root f :=
    hr.congr fun q hqf => if_pos ((hl _).2 ⟨hold _ (List.mem_append_left _ (hq q hqf).1), fun hm =>
      hn'.2.2 (hq q hqf).1 hm⟩)
  refine ⟨⟨h', w.node, Function.update w.trees a (some (o.movedFrom dyn left))⟩, by
    simp only [World.step, e, Outcome.bind], ?_, o.movedFrom dyn left, by simp, rfl⟩
  unfold World.look
  simp only [Function.update_self, TreeObj.movedFrom]
  rw [hr'.tree (by rw [Repr.length hr']; exact hf), h2, h3]
  cases dyn <;> simp

end

/-! ## Concrete cases -/

/-- The platform of the examples: the coordinates are small. -/
def movesPlatform : Platform ℤ := .le64 ((Codec.unsigned 1).view Int.toNat fun n => some n)

/-- A tree of five points, nine nodes; the point set is called `sp`. -/
def movesBuild (a : Nat) (sp : String) : TreeOp ℤ 2 (Branch1 ℤ 2) String :=
  .build a sp (KdTree.cfg (euclideanTag ℤ 2) Ref.intNum Ref.pts5 (Ref.optsSliding ℤ 2)) 5 .fromSpace 10

/-- A tree of three of them, with median splits. -/
def movesBuild3 (a : Nat) (sp : String) : TreeOp ℤ 2 (Branch1 ℤ 2) String :=
  .build a sp (KdTree.cfg (euclideanTag ℤ 2) Ref.intNum Ref.pts5 (Ref.optsMedian ℤ 2)) 3 .fromSpace 10

/-- What is read of the objects 0 to 3: the point set, the indices, the number of nodes. -/
def movesSeen (w : World ℤ 2 (Branch1 ℤ 2) String) : List (Option (String × List Nat × Nat)) :=
  (List.range 4).map fun a => (w.look 10 a).map fun r => (r.2, r.1.indices, nodes r.1.root)

/-- A program with chunks of two nodes.  `left` empties the point set. -/
def movesRun (dyn : Bool) (fails : Nat → Nat → Bool) (ops : List (TreeOp ℤ 2 (Branch1 ℤ 2) String)) :
    Outcome (World ℤ 2 (Branch1 ℤ 2) String × List Bool) :=
  World.empty.run bump fails 2 dyn (fun _ => "") movesPlatform (movesPlatform.branch1 2) ops

/-- Two trees, both are moved, an object is used again after its contents were moved away; then all memory is freed.
The dimension is known at run time. -/
example : (movesRun true (fun _ _ => false) [movesBuild 0 "p", movesBuild3 1 "q", .moveConstruct 2 0, .moveAssign 0 1,
      .destroy 1]).check (fun r => decide (movesSeen r.1 =
        [some ("q", [0, 1, 2], 3), none, some ("p", [0, 2, 3, 1, 4], 9), none] ∧ r.2 = List.replicate 5 false)) = true ∧
    (movesRun true (fun _ _ => false) [movesBuild 0 "p", movesBuild3 1 "q", .moveConstruct 2 0, .moveAssign 0 1,
      .destroy 1, .destroy 2, .destroy 0]).check (fun r => decide (r.1.heap.live = [])) = true := by
  decide +kernel

/-- A swap. -/
example : (movesRun true (fun _ _ => false) [movesBuild 0 "p", movesBuild3 1 "q", .moveConstruct 2 0, .moveAssign 0 1,
      .moveAssign 1 2, .destroy 2]).check (fun r => decide (movesSeen r.1 =
        [some ("q", [0, 1, 2], 3), some ("p", [0, 2, 3, 1, 4], 9), none, none])) = true := by
  decide +kernel

/-- Assignment to an object that holds a tree, dimension known at compile time.  The source has no indices any more, but
nodes.  After both objects were destroyed, the five chunks of the first tree are left. -/
example : (movesRun false (fun _ _ => false) [movesBuild 0 "p", movesBuild3 1 "q", .moveAssign 0 1]).check
      (fun r => decide (movesSeen r.1 = [some ("q", [0, 1, 2], 3), some ("", [], 3), none, none])) = true ∧
    (movesRun false (fun _ _ => false) [movesBuild 0 "p", movesBuild3 1 "q", .moveAssign 0 1, .destroy 0,
      .destroy 1]).check (fun r => decide (r.1.heap.live = [6, 5, 4, 3, 2])) = true := by
  decide +kernel

/-- The second constructor runs out of memory: the first tree is as it was. -/
example : (movesRun false (fun t _ => t == 7) [movesBuild 0 "p", movesBuild3 1 "q"]).check
      (fun r => decide (movesSeen r.1 = [some ("p", [0, 2, 3, 1, 4], 9), none, none, none] ∧ r.2 = [false, true] ∧
        r.1.heap.live.length = 6)) = true := by
  decide +kernel

/-- A tree that is saved, and loaded after its object was destroyed. -/
example : (movesRun true (fun _ _ => false) [movesBuild 0 "p"]).check (fun r =>
    match r.1.look 10 0 with
    | none => false
    | some (D, _) =>
      (r.1.run bump (fun _ _ => false) 2 true (fun _ => "") movesPlatform (movesPlatform.branch1 2) [.destroy 0,
          .load 1 "r" 200 (saveData (fun _ => 0) movesPlatform (movesPlatform.branch1 2) D [])]).check fun r =>
        decide (movesSeen r.1 = [none, some ("r", [0, 2, 3, 1, 4], 9), none, none])) = true := by
  decide +kernel

/-- The hypotheses of the theorems are met: a state with two trees, one of which was moved. -/
example : ∃ (w : World ℤ 2 (Branch1 ℤ 2) String) (st : Nat → Has ℤ 2 (Branch1 ℤ 2) String),
    Reach bump (fun _ _ => false) 2 true (fun _ => "") movesPlatform (movesPlatform.branch1 2) w st [] ∧
    (∃ D, st 2 = .holds D "p") ∧ (∃ D, st 1 = .holds D "q") ∧ st 0 = .moved := by
  have hb0 : ∃ D, buildTree (KdTree.cfg (euclideanTag ℤ 2) Ref.intNum Ref.pts5 (Ref.optsSliding ℤ 2)) 5 .fromSpace 10 =
      .ok D := by
    obtain ⟨D, h, -⟩ := Outcome.exists_of_check (x := buildTree (KdTree.cfg (euclideanTag ℤ 2) Ref.intNum Ref.pts5
      (Ref.optsSliding ℤ 2)) 5 .fromSpace 10) (p := fun _ => true) (by decide +kernel)
    exact ⟨D, h⟩
  have hb1 : ∃ D, buildTree (KdTree.cfg (euclideanTag ℤ 2) Ref.intNum Ref.pts5 (Ref.optsMedian ℤ 2)) 3 .fromSpace 10 =
      .ok D := by
    obtain ⟨D, h, -⟩ := Outcome.exists_of_check (x := buildTree (KdTree.cfg (euclideanTag ℤ 2) Ref.intNum Ref.pts5
      (Ref.optsMedian ℤ 2)) 3 .fromSpace 10) (p := fun _ => true) (by decide +kernel)
    exact ⟨D, h⟩
  have go : ∀ {w : World ℤ 2 (Branch1 ℤ 2) String} {st : Nat → Has ℤ 2 (Branch1 ℤ 2) String}
      (_ : Reach bump (fun _ _ => false) 2 true (fun _ => "") movesPlatform (movesPlatform.branch1 2) w st [])
      (op : TreeOp ℤ 2 (Branch1 ℤ 2) String), MayDo movesPlatform (movesPlatform.branch1 2) st op →
      losesChunks w op = [] → ∃ w', Reach bump (fun _ _ => false) 2 true (fun _ => "") movesPlatform
        (movesPlatform.branch1 2) w' (after movesPlatform (movesPlatform.branch1 2) st false op) [] := by
    intro w st h op ok hl
    obtain ⟨w', t, e, ht⟩ := c128_defined_partial (by decide) h op ok
    have : t = false := by
      cases t with
      | false => rfl
      | true =>
        obtain ⟨-, _, _, -, -, hf⟩ := ht rfl
        cases hf
    subst this
    have := Reach.step h ok e
    rw [hl] at this
    exact ⟨w', this⟩
  obtain ⟨D0, h0⟩ := hb0
  obtain ⟨D1, h1⟩ := hb1
  obtain ⟨w1, r1⟩ := go .start (movesBuild 0 "p") ⟨rfl, D0, h0⟩ rfl
  simp only [movesBuild, after, h0] at r1
  obtain ⟨w2, r2⟩ := go r1 (movesBuild3 1 "q") ⟨by simp, D1, h1⟩ rfl
  simp only [movesBuild3, after, h1] at r2
  obtain ⟨w3, r3⟩ := go r2 (.moveConstruct 2 0) ⟨by simp, by simp⟩ rfl
  refine ⟨w3, _, r3, ⟨D0, ?_⟩, ⟨D1, ?_⟩, ?_⟩ <;> simp [after]

end Pico.Props
