import Verif.Model.Memory
import Mathlib.Data.List.Basic
import Mathlib.Data.List.Nodup

/-!
# Invariants of the node memory
-/

namespace Pico

/-! ## Chains of nodes -/

/-- The list of nodes reachable from `head` through `prev`, all allocated. -/
inductive Chain (h : Heap) : Option Nat → List Nat → Prop where
  | nil : Chain h none []
  | cons {a : Nat} {l : List Nat} (hl : a ∈ h.live) (c : Chain h (h.prev a) l) :
      Chain h (some a) (a :: l)

theorem Chain.mem_live {h : Heap} {o : Option Nat} {l : List Nat} (c : Chain h o l) :
    ∀ x ∈ l, x ∈ h.live := by
  induction c with
  | nil => simp
  | cons hl _ ih =>
    intro x hx
    rcases List.mem_cons.1 hx with rfl | hx
    · exact hl
    · exact ih x hx

theorem Chain.congr {h h' : Heap} {o : Option Nat} {l : List Nat} (c : Chain h o l)
    (hl : ∀ x ∈ l, x ∈ h'.live) (hp : ∀ x ∈ l, h'.prev x = h.prev x) : Chain h' o l := by
  induction c with
  | nil => exact .nil
  | cons _ _ ih =>
    refine .cons (hl _ (by simp)) ?_
    rw [hp _ (by simp)]
    exact ih (fun x hx => hl x (by simp [hx])) fun x hx => hp x (by simp [hx])

theorem Chain.head_none {h : Heap} {l : List Nat} (c : Chain h none l) : l = [] := by
  cases c
  rfl

/-- `release` deletes exactly the nodes of the list, each of them once. -/
theorem Heap.release_ok {h : Heap} {o : Option Nat} {l : List Nat} (c : Chain h o l) (hn : l.Nodup)
    {fuel : Nat} (hf : l.length ≤ fuel) :
    ∃ h', h.release fuel o = .ok h' ∧ h'.live = h.live.filter (· ∉ l) ∧ h'.prev = h.prev := by
  induction l generalizing h o fuel with
  | nil =>
    cases c
    refine ⟨h, by cases fuel <;> rfl, ?_, rfl⟩
    simp
  | cons a l ih =>
    cases c with
    | cons hl c =>
      obtain ⟨fuel, rfl⟩ : ∃ f, fuel = f + 1 := ⟨fuel - 1, by simp at hf; omega⟩
      have hn' := List.nodup_cons.1 hn
      have c' : Chain (h.delete a) (h.prev a) l := by
        refine c.congr (fun x hx => ?_) fun x _ => rfl
        refine List.mem_filter.2 ⟨c.mem_live x hx, ?_⟩
        have : x ≠ a := fun e => hn'.1 (e ▸ hx)
        simpa using this
      obtain ⟨h', e1, e2, e3⟩ := ih c' hn'.2 (fuel := fuel) (by simp at hf; omega)
      refine ⟨h', ?_, ?_, e3⟩
      · rw [Heap.release, if_pos hl, e1]
      · rw [e2]
        simp only [Heap.delete, List.filter_filter]
        apply List.filter_congr
        intro x _
        by_cases h1 : x = a <;> by_cases h2 : x ∈ l <;> simp [h1, h2]

/-! ## One allocator -/

/-- The allocator object is usable and `out` are the objects it has handed out. -/
structure AllocOk (cs : Nat) (h : Heap) (o : Obj) (out : List Ptr) : Prop where
  index : o.index ≤ cs
  chunk : o.index < cs → ∃ c, o.chunk = some c ∧ c ∈ h.live
  live : ∀ p ∈ out, p.1 ∈ h.live ∧ p.2 < cs
  below : ∀ p ∈ out, o.index < cs → o.chunk = some p.1 → p.2 < o.index
  nodup : out.Nodup

theorem allocOk_new (cs : Nat) (h : Heap) : AllocOk cs h (.new cs) [] where
  index := le_rfl
  chunk h := absurd h (lt_irrefl _)
  live := by simp
  below := by simp
  nodup := List.nodup_nil

theorem AllocOk.refill {M : Malloc} {cs : Nat} {h : Heap} {o : Obj} {out : List Ptr}
    (hc : 0 < cs) (ok : AllocOk cs h o out) :
    AllocOk cs (o.refill M cs h).1 (o.refill M cs h).2 out ∧ (o.refill M cs h).2.index < cs := by
  unfold Obj.refill
  split
  · have hfresh : M.pick h.time h.live ∉ h.live := M.fresh _ _
    refine ⟨⟨Nat.zero_le _, fun _ => ⟨_, rfl, by simp [Heap.allocate]⟩, ?_, ?_, ok.nodup⟩, hc⟩
    · intro p hp
      exact ⟨List.mem_cons_of_mem _ (ok.live p hp).1, (ok.live p hp).2⟩
    · intro p hp _ hch
      simp only [Heap.allocate, Option.some.injEq] at hch
      exact absurd (hch ▸ (ok.live p hp).1) hfresh
  · rename_i hi
    exact ⟨ok, lt_of_le_of_ne ok.index hi⟩

theorem AllocOk.take {cs : Nat} {h : Heap} {o : Obj} {out : List Ptr} (ok : AllocOk cs h o out)
    (hlt : o.index < cs) :
    ∃ p h' o', o.take cs h = .ok (p, h', o') ∧ p ∉ out ∧ AllocOk cs h' o' (p :: out) := by
  obtain ⟨c, hch, hcl⟩ := ok.chunk hlt
  have hout : ((c, o.index) : Ptr) ∉ out := fun hm => absurd (ok.below _ hm hlt hch) (lt_irrefl _)
  refine ⟨(c, o.index), h, ⟨o.head, o.index + 1, o.chunk⟩, ?_, hout,
    ⟨hlt, fun _ => ⟨c, hch, hcl⟩, ?_, ?_, ?_⟩⟩
  · unfold Obj.take
    rw [hch]
    exact if_pos ⟨hcl, hlt⟩
  · intro p hp
    rcases List.mem_cons.1 hp with rfl | hp
    · exact ⟨hcl, hlt⟩
    · exact ok.live p hp
  · intro p hp _ hpc
    rcases List.mem_cons.1 hp with rfl | hp
    · exact Nat.lt_succ_self _
    · exact Nat.lt_succ_of_lt (ok.below p hp hlt hpc)
  · exact List.nodup_cons.2 ⟨hout, ok.nodup⟩

/-- `allocate` succeeds and returns an object that is allocated and was not handed out before. -/
theorem AllocOk.allocate {M : Malloc} {cs : Nat} {h : Heap} {o : Obj} {out : List Ptr}
    (hc : 0 < cs) (ok : AllocOk cs h o out) :
    ∃ p h' o', o.allocate M cs h = .ok (p, h', o') ∧ p ∉ out ∧ AllocOk cs h' o' (p :: out) :=
  (ok.refill hc).1.take (ok.refill hc).2

/-! ## Nodes -/

section
variable {β : Type}

/-- The nodes from `p` represent the tree; the list holds the addresses of all of them. -/
inductive Repr (node : Ptr → Option (Node β)) : Ptr → Tree β → List Ptr → Prop where
  | leaf {p : Ptr} {b e : Nat} (h : node p = some ⟨none, none, .leaf b e⟩) :
      Repr node p (.leaf b e) [p]
  | branch {p l r : Ptr} {data : β} {tl tr : Tree β} {fl fr : List Ptr}
      (h : node p = some ⟨some l, some r, .branch data⟩)
      (hl : Repr node l tl fl) (hr : Repr node r tr fr) :
      Repr node p (.branch data tl tr) (p :: (fl ++ fr))

theorem Repr.congr {node node' : Ptr → Option (Node β)} {p : Ptr} {t : Tree β} {f : List Ptr}
    (h : Repr node p t f) (he : ∀ q ∈ f, node' q = node q) : Repr node' p t f := by
  induction h with
  | leaf h => exact .leaf ((he _ (by simp)).trans h)
  | branch h _ _ ih1 ih2 =>
    exact .branch ((he _ (by simp)).trans h) (ih1 fun q hq => he q (by simp [hq]))
      (ih2 fun q hq => he q (by simp [hq]))

theorem Repr.head_mem {node : Ptr → Option (Node β)} {p : Ptr} {t : Tree β} {f : List Ptr}
    (h : Repr node p t f) : p ∈ f := by
  cases h <;> simp

/-- A traversal sees the tree. -/
theorem Repr.tree {node : Ptr → Option (Node β)} {p : Ptr} {t : Tree β} {f : List Ptr}
    (h : Repr node p t f) {fuel : Nat} (hf : f.length ≤ fuel) : NodeHeap.tree node fuel p = some t := by
  induction h generalizing fuel with
  | leaf h =>
    obtain ⟨fuel, rfl⟩ : ∃ k, fuel = k + 1 := ⟨fuel - 1, by simp at hf; omega⟩
    simp [NodeHeap.tree, h, Node.isLeaf]
  | branch h _ _ ih1 ih2 =>
    obtain ⟨fuel, rfl⟩ : ∃ k, fuel = k + 1 := ⟨fuel - 1, by simp at hf; omega⟩
    simp only [List.length_cons, List.length_append] at hf
    simp [NodeHeap.tree, h, Node.isLeaf, ih1 (fuel := fuel) (by omega),
      ih2 (fuel := fuel) (by omega)]

theorem NodeHeap.allocate_ok {M : Malloc} {cs : Nat} {s : NodeHeap β} {out : List Ptr}
    (hc : 0 < cs) (ok : AllocOk cs s.heap s.obj out) :
    ∃ p s', s.allocate M cs = .ok (p, s') ∧ p ∉ out ∧ AllocOk cs s'.heap s'.obj (p :: out) ∧
      s'.node = Function.update s.node p none := by
  obtain ⟨p, h', o', e, h1, h2⟩ := ok.allocate (M := M) hc
  exact ⟨p, ⟨h', o', Function.update s.node p none⟩, by simp [NodeHeap.allocate, e, Outcome.bind], h1,
    h2, rfl⟩

/-- What a function that creates the nodes of a tree guarantees: the nodes represent the tree, they are
pairwise different, none of them was in use before, nothing else was changed. -/
structure BuiltIn (cs : Nat) (out : List Ptr) (s : NodeHeap β) (p : Ptr) (t : Tree β)
    (s' : NodeHeap β) (f : List Ptr) : Prop where
  repr : Repr s'.node p t f
  nodup : f.Nodup
  fresh : ∀ q ∈ f, q ∉ out
  same : ∀ q ∈ out, s'.node q = s.node q
  ok : AllocOk cs s'.heap s'.obj (f ++ out)

theorem AllocOk.perm {cs : Nat} {h : Heap} {o : Obj} {l l' : List Ptr} (ok : AllocOk cs h o l)
    (hp : l.Perm l') : AllocOk cs h o l' where
  index := ok.index
  chunk := ok.chunk
  live p hm := ok.live p (hp.mem_iff.2 hm)
  below p hm := ok.below p (hp.mem_iff.2 hm)
  nodup := hp.nodup_iff.1 ok.nodup

theorem BuiltIn.leaf {cs : Nat} {out : List Ptr} {s s1 : NodeHeap β} {p : Ptr} {b e : Nat}
    (hp : p ∉ out) (ok : AllocOk cs s1.heap s1.obj (p :: out))
    (hn : s1.node = Function.update s.node p none) :
    BuiltIn cs out s p (.leaf b e) (s1.set p ⟨none, none, .leaf b e⟩) [p] where
  repr := .leaf (by simp [NodeHeap.set])
  nodup := by simp
  fresh := by simpa using hp
  same q hq := by
    have : q ≠ p := fun h => hp (h ▸ hq)
    simp [NodeHeap.set, hn, Function.update_of_ne this]
  ok := ok

theorem BuiltIn.branch {cs : Nat} {out : List Ptr} {s s1 s2 s3 : NodeHeap β} {p l r : Ptr} {data : β}
    {tl tr : Tree β} {fl fr : List Ptr} (hp : p ∉ out)
    (hn : s1.node = Function.update s.node p none) (hl : BuiltIn cs (p :: out) s1 l tl s2 fl)
    (hr : BuiltIn cs (fl ++ p :: out) s2 r tr s3 fr) :
    BuiltIn cs out s p (.branch data tl tr) (s3.set p ⟨some l, some r, .branch data⟩)
      (p :: (fl ++ fr)) where
  repr := by
    have hpl : p ∉ fl := fun h => hl.fresh p h (by simp)
    have hpr : p ∉ fr := fun h => hr.fresh p h (by simp)
    refine .branch (by simp [NodeHeap.set]) (hl.repr.congr fun q hq => ?_)
      (hr.repr.congr fun q hq => ?_)
    · have h1 : q ≠ p := fun h => hpl (h ▸ hq)
      simp only [NodeHeap.set, Function.update_of_ne h1]
      exact hr.same q (by simp [hq])
    · have h1 : q ≠ p := fun h => hpr (h ▸ hq)
      simp only [NodeHeap.set, Function.update_of_ne h1]
  nodup := by
    refine List.nodup_cons.2 ⟨fun h => ?_, List.nodup_append'.2 ⟨hl.nodup, hr.nodup, ?_⟩⟩
    · rcases List.mem_append.1 h with h | h
      · exact hl.fresh p h (by simp)
      · exact hr.fresh p h (by simp)
    · intro q h1 h2
      exact hr.fresh q h2 (by simp [h1])
  fresh q hq := by
    rcases List.mem_cons.1 hq with rfl | hq
    · exact hp
    · rcases List.mem_append.1 hq with h | h
      · exact fun hm => hl.fresh q h (by simp [hm])
      · exact fun hm => hr.fresh q h (by simp [hm])
  same q hq := by
    have h1 : q ≠ p := fun h => hp (h ▸ hq)
    simp only [NodeHeap.set, Function.update_of_ne h1]
    rw [hr.same q (by simp [hq]), hl.same q (by simp [hq]), hn, Function.update_of_ne h1]
  ok := by
    refine hr.ok.perm ?_
    refine (List.perm_append_comm_assoc fr fl (p :: out)).trans ?_
    have : (fl ++ (fr ++ p :: out)).Perm (p :: (fl ++ fr ++ out)) := by
      rw [← List.append_assoc]
      exact List.perm_middle
    exact this

/-- `read_node` creates the nodes of the tree the bytes describe. -/
theorem readNodeIn_ok {α : Type} {M : Malloc} {cs : Nat} {P : Platform α} {branch : Codec β}
    (hc : 0 < cs) (fuel : Nat) (bytes : List Byte) (s : NodeHeap β) (out : List Ptr)
    (ok : AllocOk cs s.heap s.obj out) :
    match readNode P branch fuel bytes with
    | .ok t rest => ∃ p s' f, readNodeIn M cs P branch fuel bytes s = .ok (p, s') rest ∧
        BuiltIn cs out s p t s' f
    | .eof => readNodeIn M cs P branch fuel bytes s = .eof
    | .invalid => readNodeIn M cs P branch fuel bytes s = .invalid
    | .throws => readNodeIn M cs P branch fuel bytes s = .throws
    | .oof => readNodeIn M cs P branch fuel bytes s = .oof := by
  induction fuel generalizing bytes s out with
  | zero => rfl
  | succ fuel ih =>
    obtain ⟨p, s1, e1, hp, ok1, hn1⟩ := NodeHeap.allocate_ok (M := M) hc ok
    unfold readNode readNodeIn
    rw [e1]
    simp only
    cases hb : readValue P.bool bytes with
    | eof => rfl
    | invalid => rfl
    | throws => rfl
    | oof => rfl
    | ok isLeaf b1 =>
      simp only [Load.bind]
      cases isLeaf with
      | true =>
        simp only [if_true]
        cases hv : readValue P.leaf b1 with
        | eof => rfl
        | invalid => rfl
        | throws => rfl
        | oof => rfl
        | ok x b2 => exact ⟨p, _, [p], rfl, .leaf hp ok1 hn1⟩
      | false =>
        simp only [Bool.false_eq_true, if_false]
        cases hv : readValue branch b1 with
        | eof => rfl
        | invalid => rfl
        | throws => rfl
        | oof => rfl
        | ok x b2 =>
          simp only
          have h1 := ih b2 s1 (p :: out) ok1
          cases hl : readNode P branch fuel b2 with
          | eof => rw [hl] at h1; simp only at h1 ⊢; rw [h1]
          | invalid => rw [hl] at h1; simp only at h1 ⊢; rw [h1]
          | throws => rw [hl] at h1; simp only at h1 ⊢; rw [h1]
          | oof => rw [hl] at h1; simp only at h1 ⊢; rw [h1]
          | ok tl b3 =>
            rw [hl] at h1
            obtain ⟨l, s2, fl, e2, bl⟩ := h1
            simp only
            rw [e2]
            simp only
            have h2 := ih b3 s2 (fl ++ p :: out) bl.ok
            cases hr : readNode P branch fuel b3 with
            | eof => rw [hr] at h2; simp only at h2 ⊢; rw [h2]
            | invalid => rw [hr] at h2; simp only at h2 ⊢; rw [h2]
            | throws => rw [hr] at h2; simp only at h2 ⊢; rw [h2]
            | oof => rw [hr] at h2; simp only at h2 ⊢; rw [h2]
            | ok tr b4 =>
              rw [hr] at h2
              obtain ⟨r, s3, fr, e3, br⟩ := h2
              simp only
              rw [e3]
              exact ⟨p, _, _, rfl, .branch hp hn1 bl br⟩

variable {α : Type} [LinearOrder α] [Add α] [Sub α] {d : Nat}

/-- `create_node` creates the nodes of the tree of the functional model. -/
theorem createNodeIn_ok {M : Malloc} {cs : Nat} {C : BuildCfg α d β} (hc : 0 < cs) (fuel : Nat)
    (depth : Int) (off : Nat) (seg : List Nat) (box : Box α d) (s : NodeHeap β) (out : List Ptr)
    (ok : AllocOk cs s.heap s.obj out) :
    match createNode C fuel depth off seg box with
    | .ok (t, seg', box') => ∃ p s' f,
        createNodeIn M cs C fuel depth off seg box s = .ok (p, seg', box', s') ∧
        BuiltIn cs out s p t s' f
    | .ub => createNodeIn M cs C fuel depth off seg box s = .ub
    | .oof => createNodeIn M cs C fuel depth off seg box s = .oof := by
  induction fuel generalizing depth off seg box s out with
  | zero => rfl
  | succ fuel ih =>
    obtain ⟨p, s1, e1, hp, ok1, hn1⟩ := NodeHeap.allocate_ok (M := M) hc ok
    unfold createNode createNodeIn
    rw [e1]
    simp only [Outcome.bind]
    by_cases hl : isLeaf C depth seg.length = true
    · rw [if_pos hl, if_pos hl]
      exact ⟨p, _, [p], rfl, .leaf hp ok1 hn1⟩
    · rw [if_neg hl, if_neg hl]
      cases hs : splitter C seg box with
      | ub => rfl
      | oof => rfl
      | ok sp =>
        simp only
        have h1 := ih (depth + 1) off (sp.seg.take sp.pos) (box.setMax sp.dim sp.val) s1 (p :: out) ok1
        cases hcl : createNode C fuel (depth + 1) off (sp.seg.take sp.pos)
            (box.setMax sp.dim sp.val) with
        | ub => rw [hcl] at h1; simp only at h1 ⊢; rw [h1]
        | oof => rw [hcl] at h1; simp only at h1 ⊢; rw [h1]
        | ok resl =>
          obtain ⟨tl, segL, boxL⟩ := resl
          rw [hcl] at h1
          obtain ⟨l, s2, fl, e2, bl⟩ := h1
          simp only
          rw [e2]
          simp only
          have h2 := ih (depth + 1) (off + sp.pos) (sp.seg.drop sp.pos) (box.setMin sp.dim sp.val) s2
            (fl ++ p :: out) bl.ok
          cases hcr : createNode C fuel (depth + 1) (off + sp.pos) (sp.seg.drop sp.pos)
              (box.setMin sp.dim sp.val) with
          | ub => rw [hcr] at h2; simp only at h2 ⊢; rw [h2]
          | oof => rw [hcr] at h2; simp only at h2 ⊢; rw [h2]
          | ok resr =>
            obtain ⟨tr, segR, boxR⟩ := resr
            rw [hcr] at h2
            obtain ⟨r, s3, fr, e3, br⟩ := h2
            simp only
            rw [e3]
            exact ⟨p, _, _, rfl, .branch hp hn1 bl br⟩

end

end Pico
