import Verif.Proof.Looked
import Verif.Proof.Grid
import Verif.SpecTrace

/-! # The nodes visited by a search -/

namespace Pico

open Spec

section
variable {α : Type} [LinearOrder α] [Zero α] [Add α] [Sub α] {d : Nat} {β σ : Type}
  (splitDim : β → Fin d) (pick : β → Bool × α) (V : Visitor α σ) (dist : Nat → α) (v : List Nat)

/-- The child that is searched first. -/
def nearOf (data : β) (l r : Tree β) : Tree β := if (pick data).1 then l else r

/-- The other child. -/
def farOf (data : β) (l r : Tree β) : Tree β := if (pick data).1 then r else l

omit [Zero α] in
theorem searchNearest_branch (data : β) (l r : Tree β) (D : α) (st : Pt α d × σ) :
    searchNearest splitDim pick V dist v (.branch data l r) D st =
      (let st1 := searchNearest splitDim pick V dist v (nearOf pick data l r) D st
       let D' := D - st1.1 (splitDim data) + (pick data).2
       if V.max st1.2 ≥ D' then
        let st2 := searchNearest splitDim pick V dist v (farOf pick data l r) D'
          (Function.update st1.1 (splitDim data) (pick data).2, st1.2)
        (Function.update st2.1 (splitDim data) (st1.1 (splitDim data)), st2.2)
       else st1) := by
  rw [searchNearest]
  unfold nearOf farOf
  cases (pick data).1 <;> rfl

omit [Zero α] in
theorem searchTrace_branch (data : β) (l r : Tree β) (D : α) (st : Pt α d × σ) :
    searchTrace splitDim pick V dist v (.branch data l r) D st =
      (let st1 := searchNearest splitDim pick V dist v (nearOf pick data l r) D st
       let D' := D - st1.1 (splitDim data) + (pick data).2
       .branch data l r :: searchTrace splitDim pick V dist v (nearOf pick data l r) D st ++
        if V.max st1.2 ≥ D' then
          searchTrace splitDim pick V dist v (farOf pick data l r) D'
            (Function.update st1.1 (splitDim data) (pick data).2, st1.2)
        else []) := by
  rw [searchTrace]
  unfold nearOf farOf
  cases (pick data).1 <;> rfl

theorem openedOf_append (a b : List (Tree β)) : openedOf (a ++ b) = openedOf a ++ openedOf b :=
  List.filterMap_append

theorem openedOf_branch (data : β) (l r : Tree β) (a : List (Tree β)) :
    openedOf (.branch data l r :: a) = openedOf a := rfl

/-- The points of the leaves with the given index ranges. -/
def pointsOf (L : List (Nat × Nat)) : List Nat := L.flatMap fun r => slice v r.1 r.2

theorem pointsOf_append (a b : List (Nat × Nat)) : pointsOf v (a ++ b) = pointsOf v a ++ pointsOf v b :=
  List.flatMap_append

omit [Zero α] in
/-- The search restores the offsets and shows the visitor the points of the leaves it opens. -/
theorem searchNearest_trace (t : Tree β) (D : α) (off : Pt α d) (s : σ) :
    searchNearest splitDim pick V dist v t D (off, s) =
      (off, visitAll V dist (pointsOf v (openedOf (searchTrace splitDim pick V dist v t D (off, s)))) s) := by
  have key : ∀ (t1 t2 : Tree β) (data : β) (l r : Tree β),
      (∀ D off s, searchNearest splitDim pick V dist v t1 D (off, s) =
        (off, visitAll V dist (pointsOf v (openedOf (searchTrace splitDim pick V dist v t1 D (off, s)))) s)) →
      (∀ D off s, searchNearest splitDim pick V dist v t2 D (off, s) =
        (off, visitAll V dist (pointsOf v (openedOf (searchTrace splitDim pick V dist v t2 D (off, s)))) s)) →
      nearOf pick data l r = t1 → farOf pick data l r = t2 →
      ∀ D off s, searchNearest splitDim pick V dist v (.branch data l r) D (off, s) =
        (off, visitAll V dist
          (pointsOf v (openedOf (searchTrace splitDim pick V dist v (.branch data l r) D (off, s)))) s) := by
    intro t1 t2 data l r h1 h2 e1 e2 D off s
    rw [searchNearest_branch, searchTrace_branch, e1, e2]
    dsimp only
    rw [h1]
    dsimp only
    rw [List.cons_append, openedOf_branch, openedOf_append, pointsOf_append, visitAll_append]
    split_ifs
    · rw [h2]
      dsimp only
      rw [Function.update_idem, Function.update_eq_self]
    · rfl
  induction t generalizing D off s with
  | leaf b e =>
    simp [searchNearest, searchTrace, openedOf, pointsOf]
  | branch data l r ihl ihr =>
    by_cases hb : (pick data).1 = true
    · exact key l r data l r ihl ihr (by simp [nearOf, hb]) (by simp [farOf, hb]) D off s
    · exact key r l data l r ihr ihl (by simp [nearOf, hb]) (by simp [farOf, hb]) D off s

omit [Zero α] in
theorem openedOf_pos (t : Tree β) (D : α) (st : Pt α d × σ) :
    1 ≤ (openedOf (searchTrace splitDim pick V dist v t D st)).length := by
  induction t generalizing D st with
  | leaf b e => simp [searchTrace, openedOf]
  | branch data l r ihl ihr =>
    rw [searchTrace_branch]
    dsimp only
    rw [List.cons_append, openedOf_branch, openedOf_append, List.length_append]
    have : 1 ≤ (openedOf (searchTrace splitDim pick V dist v (nearOf pick data l r) D st)).length := by
      unfold nearOf
      split_ifs
      exacts [ihl _ _, ihr _ _]
    omega

omit [Zero α] in
/-- Every visited node lies on the way to a leaf that is opened. -/
theorem searchTrace_length (t : Tree β) (D : α) (st : Pt α d × σ) :
    (searchTrace splitDim pick V dist v t D st).length ≤
      (openedOf (searchTrace splitDim pick V dist v t D st)).length * (height t + 1) := by
  induction t generalizing D st with
  | leaf b e => simp [searchTrace, openedOf]
  | branch data l r ihl ihr =>
    rw [searchTrace_branch]
    dsimp only
    rw [List.cons_append, openedOf_branch, openedOf_append, List.length_append, List.length_cons, List.length_append]
    have hn : ∀ D st, (searchTrace splitDim pick V dist v (nearOf pick data l r) D st).length ≤
        (openedOf (searchTrace splitDim pick V dist v (nearOf pick data l r) D st)).length *
          (max (height l) (height r) + 1) := by
      intro D st
      unfold nearOf
      split_ifs
      · exact (ihl D st).trans (Nat.mul_le_mul_left _ (by omega))
      · exact (ihr D st).trans (Nat.mul_le_mul_left _ (by omega))
    have hf : ∀ D st, (searchTrace splitDim pick V dist v (farOf pick data l r) D st).length ≤
        (openedOf (searchTrace splitDim pick V dist v (farOf pick data l r) D st)).length *
          (max (height l) (height r) + 1) := by
      intro D st
      unfold farOf
      split_ifs
      · exact (ihr D st).trans (Nat.mul_le_mul_left _ (by omega))
      · exact (ihl D st).trans (Nat.mul_le_mul_left _ (by omega))
    have h1 := hn D st
    have h0 := openedOf_pos splitDim pick V dist v (nearOf pick data l r) D st
    rw [height]
    split_ifs
    · have h2 := hf (D - (searchNearest splitDim pick V dist v (nearOf pick data l r) D st).1 (splitDim data) +
          (pick data).2) (Function.update (searchNearest splitDim pick V dist v (nearOf pick data l r) D st).1
          (splitDim data) (pick data).2, (searchNearest splitDim pick V dist v (nearOf pick data l r) D st).2)
      rw [Nat.mul_succ, Nat.add_mul]
      omega
    · rw [Nat.mul_succ]
      simp only [openedOf, List.filterMap_nil, List.length_nil, Nat.add_zero] at *
      omega

omit [Zero α] in
theorem openedOf_ranges (t : Tree β) (D : α) (st : Pt α d × σ) :
    (openedOf (searchTrace splitDim pick V dist v t D st)).Subperm (ranges t) := by
  induction t generalizing D st with
  | leaf b e => exact List.Subperm.refl _
  | branch data l r ihl ihr =>
    rw [searchTrace_branch, ranges_branch]
    dsimp only
    rw [List.cons_append, openedOf_branch, openedOf_append]
    have hfar : (openedOf (if V.max (searchNearest splitDim pick V dist v (nearOf pick data l r) D st).2 ≥
          D - (searchNearest splitDim pick V dist v (nearOf pick data l r) D st).1 (splitDim data) + (pick data).2 then
        searchTrace splitDim pick V dist v (farOf pick data l r)
          (D - (searchNearest splitDim pick V dist v (nearOf pick data l r) D st).1 (splitDim data) + (pick data).2)
          (Function.update (searchNearest splitDim pick V dist v (nearOf pick data l r) D st).1 (splitDim data)
            (pick data).2, (searchNearest splitDim pick V dist v (nearOf pick data l r) D st).2)
        else [])).Subperm (ranges (farOf pick data l r)) := by
      split_ifs
      · unfold farOf
        split_ifs
        exacts [ihr _ _, ihl _ _]
      · exact List.nil_subperm
    have hnear : (openedOf (searchTrace splitDim pick V dist v (nearOf pick data l r) D st)).Subperm
        (ranges (nearOf pick data l r)) := by
      unfold nearOf
      split_ifs
      exacts [ihl _ _, ihr _ _]
    refine (hnear.append hfar).trans ?_
    unfold nearOf farOf
    split_ifs
    · exact List.Subperm.refl _
    · exact List.perm_append_comm.subperm

omit [Zero α] in
/-- Writing down what is looked at does not change which nodes are visited. -/
theorem searchTrace_recording (t : Tree β) (D : α) (off : Pt α d) (s : σ) (w : List Nat) :
    searchTrace splitDim pick (recording V) dist v t D (off, (s, w)) =
      searchTrace splitDim pick V dist v t D (off, s) := by
  induction t generalizing D off s w with
  | leaf b e => rfl
  | branch data l r ihl ihr =>
    have hmax : ∀ x : σ × List Nat, (recording V).max x = V.max x.1 := fun _ => rfl
    obtain ⟨w1, h1⟩ := searchNearest_recording splitDim pick V dist v (nearOf pick data l r) D off s w
    have e1 : ∀ D off s w, searchTrace splitDim pick (recording V) dist v (nearOf pick data l r) D (off, (s, w)) =
        searchTrace splitDim pick V dist v (nearOf pick data l r) D (off, s) := by
      intro D off s w
      unfold nearOf
      split_ifs
      exacts [ihl .., ihr ..]
    have e2 : ∀ D off s w, searchTrace splitDim pick (recording V) dist v (farOf pick data l r) D (off, (s, w)) =
        searchTrace splitDim pick V dist v (farOf pick data l r) D (off, s) := by
      intro D off s w
      unfold farOf
      split_ifs
      exacts [ihr .., ihl ..]
    rw [searchTrace_branch, searchTrace_branch]
    dsimp only
    rw [h1, e1, hmax]
    dsimp only
    rw [e2]

end

end Pico
