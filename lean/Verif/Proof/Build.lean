import Verif.Proof.Box
import Mathlib.Tactic.Linarith
import Mathlib.Algebra.Order.Field.Basic

/-! # Lemmas about the construction -/

set_option linter.unusedSectionVars false

namespace Pico

section
variable {α : Type} [LinearOrder α] {d : Nat}

theorem strictWeak_key {τ : Type} (f : τ → α) : StrictWeak (fun a b => decide (f a < f b)) where
  irrefl a := by simp
  trans a b c h1 h2 := by
    simp only [decide_eq_true_eq] at *
    exact h1.trans h2
  incomp a b c h1 h2 h3 h4 := by
    simp only [decide_eq_false_iff_not, not_lt] at *
    exact ⟨h3.trans h1, h2.trans h4⟩

theorem strictWeak_coordLt (pts : Nat → Pt α d) (dim : Fin d) : StrictWeak (coordLt pts dim) :=
  strictWeak_key fun i => pts i dim

theorem strictWeak_neighborLt : StrictWeak (Neighbor.lt (α := α)) :=
  strictWeak_key Neighbor.distance

/-- What every splitter guarantees. -/
structure SplitOk (pts : Nat → Pt α d) (seg : List Nat) (sp : Split α d) : Prop where
  perm : sp.seg.Perm seg
  pos_le : sp.pos ≤ seg.length
  left_le : ∀ i ∈ sp.seg.take sp.pos, pts i sp.dim ≤ sp.val
  right_ge : ∀ i ∈ sp.seg.drop sp.pos, sp.val ≤ pts i sp.dim

theorem nthSplit_ok {S : Std} {pts : Nat → Pt α d} {dim : Fin d} {k : Nat} {seg : List Nat}
    {sp : Split α d} (h : nthSplit S pts dim k seg = .ok sp) :
    SplitOk pts seg sp ∧ sp.pos = k ∧ k < seg.length ∧ sp.dim = dim ∧
      (∃ i ∈ seg, sp.val = pts i dim) ∧ sp.seg = S.nth (coordLt pts dim) k seg := by
  unfold nthSplit at h
  have hp := S.nth_perm (coordLt pts dim) k seg (strictWeak_coordLt pts dim)
  dsimp only at h
  split at h
  · simp at h
  · rename_i i hi
    simp only [Outcome.ok.injEq] at h
    have hk : k < (S.nth (coordLt pts dim) k seg).length := by
      by_contra hc
      rw [List.getElem?_eq_none (not_lt.1 hc)] at hi
      simp at hi
    have hk' : k < seg.length := by rw [← hp.length_eq]; exact hk
    have hi' : i ∈ (S.nth (coordLt pts dim) k seg).drop k := by
      have := List.getElem_of_getElem? hi
      obtain ⟨hlt, rfl⟩ := this
      rw [List.mem_iff_getElem]
      refine ⟨0, by simp; omega, ?_⟩
      simp
    subst h
    refine ⟨⟨hp, hk'.le, ?_, ?_⟩, rfl, hk', rfl, ⟨i, hp.subset (List.mem_of_mem_drop hi'), rfl⟩, rfl⟩
    · intro x hx
      have := S.nth_split (coordLt pts dim) k seg (strictWeak_coordLt pts dim) hk' x hx i hi'
      simpa [coordLt] using this
    · intro x hx
      have := S.nth_min (coordLt pts dim) k seg (strictWeak_coordLt pts dim) hk' i hi x hx
      simpa [coordLt] using this

theorem nthSplit_of_lt (S : Std) (pts : Nat → Pt α d) (dim : Fin d) {k : Nat} {seg : List Nat}
    (h : k < seg.length) : ∃ sp, nthSplit S pts dim k seg = .ok sp := by
  unfold nthSplit
  have hp := S.nth_perm (coordLt pts dim) k seg (strictWeak_coordLt pts dim)
  dsimp only
  split
  · rename_i hi
    rw [List.getElem?_eq_none_iff, hp.length_eq] at hi
    omega
  · exact ⟨_, rfl⟩

variable [Add α] [Sub α] {β : Type}

/-- A successful call of a splitter: contract, and what is known about position and value. -/
theorem splitter_ok {C : BuildCfg α d β} {seg : List Nat} {box : Box α d} {sp : Split α d}
    (h : splitter C seg box = .ok sp) :
    SplitOk C.pts seg sp ∧
    (∃ delta, box.maxSide C.N = (some sp.dim, delta) ∧
      (C.rule = .midpoint → sp.val = C.N.mulHalf delta + box.min sp.dim) ∧
      (C.rule = .median → ∃ i ∈ seg, sp.val = C.pts i sp.dim) ∧
      (C.rule = .sliding → sp.val = C.N.divTwo delta + box.min sp.dim ∨
        ∃ i ∈ seg, sp.val = C.pts i sp.dim)) ∧
    (C.rule = .median → sp.pos = seg.length / 2) ∧
    (C.rule = .median → sp.pos < seg.length) ∧
    (C.rule = .sliding → 2 ≤ seg.length → 0 < sp.pos ∧ sp.pos < seg.length) := by
  unfold splitter at h
  split at h
  · rename_i hr
    unfold splitMedian at h
    split at h
    · simp at h
    · rename_i dim hm
      obtain ⟨h1, h2, h3, h4, h5, -⟩ := nthSplit_ok h
      refine ⟨h1, ⟨(box.maxSide C.N).2, ?_, ?_, ?_, ?_⟩, ?_, ?_, ?_⟩
      · rw [h4, ← hm]
      · simp [hr]
      · intro _; rw [h4]; exact h5
      · simp [hr]
      · intro _; exact h2
      · intro _; omega
      · simp [hr]
  · rename_i hr
    unfold splitMidpoint at h
    split at h
    · simp at h
    · rename_i dim delta hm
      dsimp only at h
      simp only [Outcome.ok.injEq] at h
      subst h
      refine ⟨⟨C.S.partition_perm _ _, C.S.partition_le _ _, ?_, ?_⟩, ⟨delta, hm, ?_, ?_, ?_⟩, ?_, ?_, ?_⟩
      · intro i hi
        have := C.S.partition_left _ _ i hi
        simp only [coordBelow, decide_eq_true_eq] at this
        exact this.le
      · intro i hi
        have := C.S.partition_right _ _ i hi
        simpa [coordBelow] using this
      · intro _; rfl
      all_goals simp [hr]
  · rename_i hr
    unfold splitSliding at h
    split at h
    · simp at h
    · rename_i dim delta hm
      dsimp only at h
      have hpp := C.S.partition_perm (coordBelow C.pts dim (C.N.divTwo delta + box.min dim)) seg
      have hpl := C.S.partition_le (coordBelow C.pts dim (C.N.divTwo delta + box.min dim)) seg
      split at h
      · rename_i hk
        rw [hpp.length_eq] at hk
        split at h
        · simp at h
        · rename_i k' hk'
          obtain ⟨h1, h2, h3, h4, ⟨i, hi, h5⟩, -⟩ := nthSplit_ok h
          rw [hpp.length_eq] at h3
          refine ⟨⟨h1.perm.trans hpp, by rw [h2]; omega, h1.left_le, h1.right_ge⟩,
            ⟨delta, by rw [h4]; exact hm, ?_, ?_, ?_⟩, ?_, ?_, ?_⟩
          · simp [hr]
          · simp [hr]
          · intro _; right; rw [h4]; exact ⟨i, hpp.subset hi, h5⟩
          · simp [hr]
          · simp [hr]
          · intro _ hl; omega
      · split at h
        · obtain ⟨h1, h2, h3, h4, ⟨i, hi, h5⟩, -⟩ := nthSplit_ok h
          rw [hpp.length_eq] at h3
          refine ⟨⟨h1.perm.trans hpp, by rw [h2]; omega, h1.left_le, h1.right_ge⟩,
            ⟨delta, by rw [h4]; exact hm, ?_, ?_, ?_⟩, ?_, ?_, ?_⟩
          · simp [hr]
          · simp [hr]
          · intro _; right; rw [h4]; exact ⟨i, hpp.subset hi, h5⟩
          · simp [hr]
          · simp [hr]
          · intro _ hl; omega
        · rename_i hk hk0
          rw [hpp.length_eq] at hk
          simp only [Outcome.ok.injEq] at h
          subst h
          refine ⟨⟨hpp, hpl, ?_, ?_⟩, ⟨delta, hm, ?_, ?_, ?_⟩, ?_, ?_, ?_⟩
          · intro i hi
            have := C.S.partition_left _ _ i hi
            simp only [coordBelow, decide_eq_true_eq] at this
            exact this.le
          · intro i hi
            have := C.S.partition_right _ _ i hi
            simpa [coordBelow] using this
          · simp [hr]
          · simp [hr]
          · intro _; exact Or.inl rfl
          · simp [hr]
          · simp [hr]
          · intro _ _
            refine ⟨Nat.pos_of_ne_zero hk0, ?_⟩
            exact lt_of_le_of_ne hpl hk

/-- The call tree of a finished `create_node`. -/
inductive Created (C : BuildCfg α d β) :
    Int → Nat → List Nat → Box α d → Tree β → List Nat → Box α d → Prop where
  | leaf {depth : Int} {o : Nat} {seg : List Nat} {box : Box α d}
      (hl : isLeaf C depth seg.length = true) :
      Created C depth o seg box (.leaf o (o + seg.length)) seg (leafBox C seg box)
  | branch {depth : Int} {o : Nat} {seg : List Nat} {box : Box α d} {sp : Split α d}
      {l r : Tree β} {segL segR : List Nat} {boxL boxR : Box α d}
      (hl : isLeaf C depth seg.length = false)
      (hs : splitter C seg box = .ok sp)
      (left : Created C (depth + 1) o (sp.seg.take sp.pos) (box.setMax sp.dim sp.val) l segL boxL)
      (right : Created C (depth + 1) (o + sp.pos) (sp.seg.drop sp.pos) (box.setMin sp.dim sp.val)
        r segR boxR) :
      Created C depth o seg box (.branch (C.setBranch boxL boxR sp.dim) l r) (segL ++ segR)
        (boxL.fitBox boxR)

theorem created_of_createNode {C : BuildCfg α d β} {fuel : Nat} {depth : Int} {o : Nat}
    {seg : List Nat} {box : Box α d} {res : Tree β × List Nat × Box α d}
    (h : createNode C fuel depth o seg box = .ok res) :
    Created C depth o seg box res.1 res.2.1 res.2.2 := by
  induction fuel generalizing depth o seg box res with
  | zero => simp [createNode] at h
  | succ fuel ih =>
    unfold createNode at h
    split at h
    · rename_i hl
      simp only [Outcome.ok.injEq] at h
      subst h
      exact .leaf hl
    · rename_i hl
      cases hs : splitter C seg box with
      | ub => simp [hs, Outcome.bind] at h
      | oof => simp [hs, Outcome.bind] at h
      | ok sp =>
        simp only [hs, Outcome.bind] at h
        cases h1 : createNode C fuel (depth + 1) o (sp.seg.take sp.pos) (box.setMax sp.dim sp.val) with
        | ub => simp [h1] at h
        | oof => simp [h1] at h
        | ok resL =>
          simp only [h1] at h
          cases h2 : createNode C fuel (depth + 1) (o + sp.pos) (sp.seg.drop sp.pos)
              (box.setMin sp.dim sp.val) with
          | ub => simp [h2] at h
          | oof => simp [h2] at h
          | ok resR =>
            simp only [h2, Outcome.ok.injEq] at h
            subst h
            exact .branch (by simpa using hl) hs (ih h1) (ih h2)

/-- More fuel does not change a finished run. -/
theorem createNode_of_created {C : BuildCfg α d β} {depth : Int} {o : Nat}
    {seg : List Nat} {box : Box α d} {t : Tree β} {seg' : List Nat} {box' : Box α d}
    (h : Created C depth o seg box t seg' box') :
    ∃ fuel, ∀ f ≥ fuel, createNode C f depth o seg box = .ok (t, seg', box') := by
  induction h with
  | @leaf depth o seg box hl =>
    refine ⟨1, fun f hf => ?_⟩
    obtain ⟨f, rfl⟩ : ∃ g, f = g + 1 := ⟨f - 1, by omega⟩
    simp [createNode, hl]
  | @branch depth o seg box sp l r segL segR boxL boxR hl hs _ _ ih1 ih2 =>
    obtain ⟨f1, h1⟩ := ih1
    obtain ⟨f2, h2⟩ := ih2
    refine ⟨max f1 f2 + 1, fun f hf => ?_⟩
    obtain ⟨f, rfl⟩ : ∃ g, f = g + 1 := ⟨f - 1, by omega⟩
    rw [createNode, if_neg (by simp [hl]), hs]
    simp only [Outcome.bind]
    rw [h1 f (by omega)]
    simp only
    rw [h2 f (by omega)]

theorem Created.perm {C : BuildCfg α d β} {depth : Int} {o : Nat}
    {seg : List Nat} {box : Box α d} {t : Tree β} {seg' : List Nat} {box' : Box α d}
    (h : Created C depth o seg box t seg' box') : seg'.Perm seg := by
  induction h with
  | leaf hl => exact List.Perm.refl _
  | @branch depth o seg box sp l r segL segR boxL boxR hl hs _ _ ih1 ih2 =>
    have h1 := (splitter_ok hs).1.perm
    have h2 := ih1.append ih2
    rw [List.take_append_drop] at h2
    exact h2.trans h1

theorem splitter_take_length {C : BuildCfg α d β} {seg : List Nat} {box : Box α d} {sp : Split α d}
    (h : splitter C seg box = .ok sp) : (sp.seg.take sp.pos).length = sp.pos := by
  have h1 := (splitter_ok h).1
  rw [List.length_take, h1.perm.length_eq]
  exact min_eq_left h1.pos_le

theorem splitter_drop_length {C : BuildCfg α d β} {seg : List Nat} {box : Box α d} {sp : Split α d}
    (h : splitter C seg box = .ok sp) : (sp.seg.drop sp.pos).length = seg.length - sp.pos := by
  have h1 := (splitter_ok h).1
  rw [List.length_drop, h1.perm.length_eq]

end

end Pico
