import Verif.Model.Walk
import Verif.Proof.TreeObj
import Verif.Proof.Reads
import Verif.Proof.Shape
import Verif.SpecTree

/-!
# Following the pointers is following the tree
-/

namespace Pico

open Spec

variable {β : Type} {mem : Ptr → Option (Node β)} {p : Ptr} {t : Tree β} {f : List Ptr} {fuel : Nat}

theorem derefNode_ok {x : Node β} (h : mem p = some x) : derefNode mem (some p) = .ok x := by
  simp [derefNode, h]

section
variable {α : Type} [LT α] [LE α] [DecidableLT α] [DecidableLE α] [Zero α] [Add α] [Sub α] {d : Nat} {σ : Type}
variable {splitDim : β → Fin d} {pick : α → β → Bool × α} {V : Visitor α σ} {q : Reader α} {dist : Nat → Outcome α}
  {indices : List Nat}

theorem searchNearestP_eq (h : Repr mem p t f) (hf : height t < fuel) (x : α) (st : Pt α d × σ) :
    searchNearestP mem splitDim pick V q dist indices fuel (some p) x st =
      searchNearestC splitDim pick V q dist indices t x st := by
  induction h generalizing fuel x st with
  | leaf h =>
    obtain ⟨fuel, rfl⟩ : ∃ k, fuel = k + 1 := ⟨fuel - 1, by omega⟩
    simp only [searchNearestP, searchNearestC, derefNode_ok h, Outcome.bind_ok, Node.isLeaf, Option.isNone_none,
      Bool.and_self, if_true, Node.asLeaf]
  | branch h _ _ ih1 ih2 =>
    obtain ⟨fuel, rfl⟩ : ∃ k, fuel = k + 1 := ⟨fuel - 1, by omega⟩
    simp only [height] at hf
    have ih1' := fun x st => ih1 (fuel := fuel) (by omega) x st
    have ih2' := fun x st => ih2 (fuel := fuel) (by omega) x st
    simp only [searchNearestP, searchNearestC, derefNode_ok h, Outcome.bind_ok, Node.isLeaf, Option.isNone_some,
      Bool.and_self, Bool.false_eq_true, if_false, Node.asBranch]
    congr 1
    funext v
    cases hp : (pick v _).1 <;> simp only [hp, if_true, if_false, Bool.false_eq_true, ih1', ih2']

end

section
variable {α : Type} {d : Nat} {splitDim : β → Fin d} {leftMax rightMin : β → α}
  {containsPt : Nat → Outcome Bool} {containsBox : Box α d → Outcome Bool}
  {intersectsLeft intersectsRight : β → Outcome Bool} {indices : List Nat}

theorem reportLeftP_eq (h : Repr mem p t f) (hf : height t < fuel) :
    reportLeftP mem fuel (some p) = .ok (reportLeft t) := by
  induction h generalizing fuel with
  | leaf h =>
    obtain ⟨fuel, rfl⟩ : ∃ k, fuel = k + 1 := ⟨fuel - 1, by omega⟩
    simp [reportLeftP, reportLeft, derefNode_ok h, Outcome.bind_ok, Node.isLeaf, Node.asLeaf]
  | branch h _ _ ih1 ih2 =>
    obtain ⟨fuel, rfl⟩ : ∃ k, fuel = k + 1 := ⟨fuel - 1, by omega⟩
    simp only [height] at hf
    simp [reportLeftP, reportLeft, derefNode_ok h, Outcome.bind_ok, Node.isLeaf, ih1 (fuel := fuel) (by omega)]

theorem reportRightP_eq (h : Repr mem p t f) (hf : height t < fuel) :
    reportRightP mem fuel (some p) = .ok (reportRight t) := by
  induction h generalizing fuel with
  | leaf h =>
    obtain ⟨fuel, rfl⟩ : ∃ k, fuel = k + 1 := ⟨fuel - 1, by omega⟩
    simp [reportRightP, reportRight, derefNode_ok h, Outcome.bind_ok, Node.isLeaf, Node.asLeaf]
  | branch h _ _ ih1 ih2 =>
    obtain ⟨fuel, rfl⟩ : ∃ k, fuel = k + 1 := ⟨fuel - 1, by omega⟩
    simp only [height] at hf
    simp [reportRightP, reportRight, derefNode_ok h, Outcome.bind_ok, Node.isLeaf, ih2 (fuel := fuel) (by omega)]

theorem reportNodeP_eq (h : Repr mem p t f) (hf : height t ≤ fuel) (idxs : List Nat) :
    reportNodeP mem indices fuel (some p) idxs = reportNodeC indices t idxs := by
  cases h with
  | leaf h => simp [reportNodeP, reportNodeC, derefNode_ok h, Outcome.bind_ok, Node.isLeaf, Node.asLeaf]
  | branch h hl hr =>
    simp only [height] at hf
    simp [reportNodeP, reportNodeC, derefNode_ok h, Outcome.bind_ok, Node.isLeaf,
      reportLeftP_eq hl (fuel := fuel) (by omega), reportRightP_eq hr (fuel := fuel) (by omega)]

theorem searchBoxP_eq (h : Repr mem p t f) (hf : height t < fuel) (st : Box α d × List Nat) :
    searchBoxP mem splitDim leftMax rightMin containsPt containsBox intersectsLeft intersectsRight indices fuel (some p)
        st =
      searchBoxC splitDim leftMax rightMin containsPt containsBox intersectsLeft intersectsRight indices t st := by
  induction h generalizing fuel st with
  | leaf h =>
    obtain ⟨fuel, rfl⟩ : ∃ k, fuel = k + 1 := ⟨fuel - 1, by omega⟩
    simp only [searchBoxP, searchBoxC, derefNode_ok h, Outcome.bind_ok, Node.isLeaf, Option.isNone_none,
      Bool.and_self, if_true, Node.asLeaf]
  | branch h hl hr ih1 ih2 =>
    obtain ⟨fuel, rfl⟩ : ∃ k, fuel = k + 1 := ⟨fuel - 1, by omega⟩
    simp only [height] at hf
    have ih1' := fun st => ih1 (fuel := fuel) (by omega) st
    have ih2' := fun st => ih2 (fuel := fuel) (by omega) st
    simp only [searchBoxP, searchBoxC, derefNode_ok h, Outcome.bind_ok, Node.isLeaf, Option.isNone_some,
      Bool.and_self, Bool.false_eq_true, if_false, Node.asBranch, ih1', ih2',
      reportNodeP_eq hl (fuel := fuel) (by omega), reportNodeP_eq hr (fuel := fuel) (by omega)]

end

theorem insertLeafRangeP_eq {indices : List Nat} (h : Repr mem p t f) (hf : height t < fuel)
    (hr : ∀ r ∈ ranges t, r.1 ≠ r.2 ∧ r.1 ≤ indices.length ∧ r.2 ≤ indices.length) (out : List (Nat × Nat)) :
    insertLeafRangeP mem indices fuel (some p) out = .ok (out ++ ranges t) := by
  induction h generalizing fuel out with
  | leaf h =>
    obtain ⟨fuel, rfl⟩ : ∃ k, fuel = k + 1 := ⟨fuel - 1, by omega⟩
    obtain ⟨h1, h2, h3⟩ := hr _ (List.mem_singleton.2 rfl)
    simp only at h1 h2 h3
    simp [insertLeafRangeP, derefNode_ok h, Outcome.bind_ok, Node.isLeaf, Node.asLeaf, h1, h2, h3, ranges, leaves, leavesFrom]
  | branch h _ _ ih1 ih2 =>
    obtain ⟨fuel, rfl⟩ : ∃ k, fuel = k + 1 := ⟨fuel - 1, by omega⟩
    simp only [height] at hf
    rw [ranges_branch] at hr ⊢
    simp [insertLeafRangeP, derefNode_ok h, Outcome.bind_ok, Node.isLeaf,
      ih1 (fuel := fuel) (by omega) (fun r h => hr r (List.mem_append_left _ h)), ih2 (fuel := fuel) (by omega) (fun r h => hr r (List.mem_append_right _ h)),
      ranges]

theorem writeNodeP_eq {α : Type} {pad : Nat → Byte} {P : Platform α} {branch : Codec β} (h : Repr mem p t f)
    (hf : height t < fuel) (out : List Byte) :
    writeNodeP mem pad P branch fuel (some p) out = .ok (writeNode pad P branch t out) := by
  induction h generalizing fuel out with
  | leaf h =>
    obtain ⟨fuel, rfl⟩ : ∃ k, fuel = k + 1 := ⟨fuel - 1, by omega⟩
    simp [writeNodeP, writeNode, derefNode_ok h, Outcome.bind_ok, Node.isLeaf, Node.asLeaf]
  | branch h _ _ ih1 ih2 =>
    obtain ⟨fuel, rfl⟩ : ∃ k, fuel = k + 1 := ⟨fuel - 1, by omega⟩
    simp only [height] at hf
    simp [writeNodeP, writeNode, derefNode_ok h, Outcome.bind_ok, Node.isLeaf, Node.asBranch,
      ih1 (fuel := fuel) (by omega), ih2 (fuel := fuel) (by omega)]

theorem insertLeafRangeP_oof {indices : List Nat} (h : Repr mem p t f) (hf : height t + 1 < fuel)
    (out : List (Nat × Nat)) : insertLeafRangeP mem indices fuel (some p) out ≠ .oof := by
  induction h generalizing fuel out with
  | @leaf p b e h =>
    obtain ⟨fuel, rfl⟩ : ∃ k, fuel = k + 2 := ⟨fuel - 2, by omega⟩
    rw [insertLeafRangeP, derefNode_ok h]
    by_cases h3 : b = e
    · simp [Outcome.bind_ok, Node.isLeaf, Node.asLeaf, h3, insertLeafRangeP, derefNode, Outcome.bind]
    · simp only [Outcome.bind_ok, Node.isLeaf, Node.asLeaf, Option.isNone_none, Bool.and_self, if_true, ne_eq, h3,
        not_false_eq_true, decide_true]
      split <;> nofun
  | @branch p l r data tl tr fl fr h hl hr' ih1 ih2 =>
    obtain ⟨fuel, rfl⟩ : ∃ k, fuel = k + 1 := ⟨fuel - 1, by omega⟩
    simp only [height] at hf
    simp only [insertLeafRangeP, derefNode_ok h, Outcome.bind_ok, Node.isLeaf, Option.isNone_some, Bool.and_self,
      Bool.false_eq_true, if_false]
    cases hx : insertLeafRangeP mem indices fuel (some l) out with
    | ok v => exact ih2 (by omega) v
    | ub => nofun
    | oof => exact absurd hx (ih1 (by omega) out)

/-- An empty leaf: `insert_leaf_range` follows its null pointers. -/
theorem insertLeafRangeP_ub {indices : List Nat} (h : Repr mem p t f) (hf : height t + 1 < fuel)
    (hr : ∃ r ∈ ranges t, r.1 = r.2) (out : List (Nat × Nat)) :
    insertLeafRangeP mem indices fuel (some p) out = .ub := by
  induction h generalizing fuel out with
  | @leaf p b e h =>
    obtain ⟨fuel, rfl⟩ : ∃ k, fuel = k + 2 := ⟨fuel - 2, by omega⟩
    obtain ⟨r, h1, h2⟩ := hr
    have h3 : b = e := by
      simp only [ranges, leaves, leavesFrom, List.map_cons, List.map_nil, List.mem_singleton] at h1
      subst h1
      exact h2
    rw [insertLeafRangeP, derefNode_ok h]
    simp [Outcome.bind_ok, Node.isLeaf, Node.asLeaf, h3, insertLeafRangeP, derefNode, Outcome.bind]
  | @branch p l r data tl tr fl fr h hl hr' ih1 ih2 =>
    obtain ⟨fuel, rfl⟩ : ∃ k, fuel = k + 1 := ⟨fuel - 1, by omega⟩
    simp only [height] at hf
    rw [ranges_branch] at hr
    simp only [insertLeafRangeP, derefNode_ok h, Outcome.bind_ok, Node.isLeaf, Option.isNone_some, Bool.and_self,
      Bool.false_eq_true, if_false]
    by_cases hc : ∃ r ∈ ranges tl, r.1 = r.2
    · rw [ih1 (by omega) hc]
      rfl
    · have hc' : ∃ r ∈ ranges tr, r.1 = r.2 := by
        obtain ⟨x, h1, h2⟩ := hr
        rcases List.mem_append.1 h1 with h1 | h1
        · exact absurd ⟨x, h1, h2⟩ hc
        · exact ⟨x, h1, h2⟩
      have h2 := fun out => ih2 (fuel := fuel) (by omega) hc' out
      cases hx : insertLeafRangeP mem indices fuel (some l) out with
      | ok v => rw [Outcome.bind_ok, h2]
      | ub => rfl
      | oof =>
        exact absurd hx (insertLeafRangeP_oof hl (by omega) out)

/-- No indices: the first leaf lies outside of them. -/
theorem insertLeafRangeP_nil (h : Repr mem p t f) (hf : height t < fuel) (hr : ∀ r ∈ ranges t, r.1 < r.2)
    (out : List (Nat × Nat)) : insertLeafRangeP mem [] fuel (some p) out = .ub := by
  induction h generalizing fuel out with
  | @leaf p b e h =>
    obtain ⟨fuel, rfl⟩ : ∃ k, fuel = k + 1 := ⟨fuel - 1, by omega⟩
    have h1 : b < e := hr (b, e) (by simp [ranges, leaves, leavesFrom])
    have h2 : e ≠ 0 := by omega
    simp [insertLeafRangeP, derefNode_ok h, Outcome.bind_ok, Node.isLeaf, Node.asLeaf, h1.ne, h2]
  | @branch p l r data tl tr fl fr h hl hr' ih1 ih2 =>
    obtain ⟨fuel, rfl⟩ : ∃ k, fuel = k + 1 := ⟨fuel - 1, by omega⟩
    simp only [height] at hf
    rw [ranges_branch] at hr
    simp only [insertLeafRangeP, derefNode_ok h, Outcome.bind_ok, Node.isLeaf, Option.isNone_some, Bool.and_self,
      Bool.false_eq_true, if_false, ih1 (fuel := fuel) (by omega) (fun r h => hr r (List.mem_append_left _ h))]
    rfl

/-- A traversal of any memory that sees a tree. -/
theorem repr_of_tree {k : Nat} (h : NodeHeap.tree mem k p = some t) : ∃ f, Repr mem p t f := by
  induction k generalizing p t with
  | zero => simp [NodeHeap.tree] at h
  | succ k ih =>
    rw [NodeHeap.tree] at h
    cases hm : mem p with
    | none => simp [hm] at h
    | some x =>
      obtain ⟨l, r, data⟩ := x
      rw [hm] at h
      cases l <;> cases r <;> cases data <;> simp [Node.isLeaf] at h
      · subst h
        exact ⟨_, .leaf hm⟩
      · rename_i l r data
        cases h1 : NodeHeap.tree mem k l <;> cases h2 : NodeHeap.tree mem k r <;> simp [h1, h2] at h
        subst h
        obtain ⟨f1, g1⟩ := ih h1
        obtain ⟨f2, g2⟩ := ih h2
        exact ⟨_, .branch hm g1 g2⟩

end Pico
