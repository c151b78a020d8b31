import Verif.Proof.Built
import Verif.Model.Search

/-! # The nearest neighbor traversal -/

set_option linter.unusedSectionVars false

namespace Pico

/-- The indices stored below a node, from left to right. -/
def Tree.elems {β : Type} (indices : List Nat) : Tree β → List Nat
  | .leaf b e => slice indices b e
  | .branch _ l r => l.elems indices ++ r.elems indices

theorem slice_append {τ : Type} (a b c : List τ) :
    slice (a ++ (b ++ c)) a.length (a.length + b.length) = b := by
  simp [slice]

section
variable {α : Type} [LinearOrder α] {d : Nat} {β : Type}

theorem Built.elems_eq {pts : Nat → Pt α d} {sb : Box α d → Box α d → Fin d → β} {o : Nat}
    {t : Tree β} {seg : List Nat} {box : Box α d} (h : Built pts sb o t seg box)
    (pre post : List Nat) (ho : o = pre.length) : t.elems (pre ++ (seg ++ post)) = seg := by
  induction h generalizing pre post with
  | leaf h => subst ho; exact slice_append _ _ _
  | @branch o l r segL segR boxL boxR dim _ _ _ ih1 ih2 =>
    have h1 := ih1 pre (segR ++ post) ho
    have h2 := ih2 (pre ++ segL) post (by simp [ho])
    simp only [List.append_assoc] at h1 h2 ⊢
    rw [Tree.elems, h1, h2]

variable [Zero α] [Add α] [Sub α] {σ : Type}

omit [Zero α] [Add α] [Sub α] in
theorem visitAll_append (V : Visitor α σ) (dist : Nat → α) (l1 l2 : List Nat) (s : σ) :
    visitAll V dist (l1 ++ l2) s = visitAll V dist l2 (visitAll V dist l1 s) :=
  List.foldl_append ..

variable (splitDim : β → Fin d) (pick : β → Bool × α) (V : Visitor α σ) (dist : Nat → α)
  (indices : List Nat)

/-- Independent of any law of arithmetic: the traversal presents a sub-collection of the points,
each at most once, and restores the offset array. -/
theorem searchNearest_struct (t : Tree β) (D : α) (st : Pt α d × σ) :
    ∃ vis skip, (vis ++ skip).Perm (t.elems indices) ∧
      searchNearest splitDim pick V dist indices t D st = (st.1, visitAll V dist vis st.2) := by
  induction t generalizing D st with
  | leaf b e =>
    exact ⟨slice indices b e, [], by simp [Tree.elems], by simp [searchNearest]⟩
  | branch data l r ihl ihr =>
    have key : ∀ (t1 t2 : Tree β),
        (∀ (D : α) (st : Pt α d × σ), ∃ vis skip, (vis ++ skip).Perm (t1.elems indices) ∧
          searchNearest splitDim pick V dist indices t1 D st = (st.1, visitAll V dist vis st.2)) →
        (∀ (D : α) (st : Pt α d × σ), ∃ vis skip, (vis ++ skip).Perm (t2.elems indices) ∧
          searchNearest splitDim pick V dist indices t2 D st = (st.1, visitAll V dist vis st.2)) →
        ∃ vis skip, (vis ++ skip).Perm (t1.elems indices ++ t2.elems indices) ∧
          (let st1 := searchNearest splitDim pick V dist indices t1 D st
           let oldOffset := st1.1 (splitDim data)
           let D' := D - oldOffset + (pick data).2
           if V.max st1.2 ≥ D' then
            let st' := (Function.update st1.1 (splitDim data) (pick data).2, st1.2)
            let st2 := searchNearest splitDim pick V dist indices t2 D' st'
            (Function.update st2.1 (splitDim data) oldOffset, st2.2)
           else st1) = (st.1, visitAll V dist vis st.2) := by
      intro t1 t2 h1 h2
      obtain ⟨v1, s1, hp1, he1⟩ := h1 D st
      dsimp only
      rw [he1]
      dsimp only
      split_ifs with hc
      · obtain ⟨v2, s2, hp2, he2⟩ := h2 (D - st.1 (splitDim data) + (pick data).2)
          (Function.update st.1 (splitDim data) (pick data).2, visitAll V dist v1 st.2)
        refine ⟨v1 ++ v2, s1 ++ s2, ?_, ?_⟩
        · have := hp1.append hp2
          refine List.Perm.trans ?_ this
          simp only [List.append_assoc]
          refine List.Perm.append_left _ ?_
          rw [← List.append_assoc, ← List.append_assoc]
          exact List.Perm.append_right _ List.perm_append_comm
        · rw [he2]
          simp [visitAll_append]
      · refine ⟨v1, s1 ++ t2.elems indices, ?_, rfl⟩
        rw [← List.append_assoc]
        exact hp1.append_right _
    cases hb : (pick data).1 with
    | true =>
      obtain ⟨vis, skip, hp, he⟩ := key l r ihl ihr
      refine ⟨vis, skip, hp, ?_⟩
      rw [← he]
      simp only [searchNearest, hb, if_true]
    | false =>
      obtain ⟨vis, skip, hp, he⟩ := key r l ihr ihl
      refine ⟨vis, skip, hp.trans List.perm_append_comm, ?_⟩
      rw [← he]
      simp only [searchNearest, hb, if_false, Bool.false_eq_true]

/-- At every branch, the offset computed for the child visited second is a lower bound of the
contribution of the split axis for all points of that child. -/
def Guard (term : Fin d → Nat → α) : Tree β → Prop
  | .leaf _ _ => True
  | .branch data l r =>
    (∀ i ∈ (if (pick data).1 then r else l).elems indices, (pick data).2 ≤ term (splitDim data) i) ∧
      Guard term l ∧ Guard term r

/-- What is needed of a visitor on the points `A`: an invariant under which `max()` never grows. -/
def Shrinks (V : Visitor α σ) (dist : Nat → α) (A : Nat → Prop) (Inv : σ → Prop) : Prop :=
  ∀ s i, A i → Inv s → Inv (V.visit s i (dist i)) ∧ V.max (V.visit s i (dist i)) ≤ V.max s

omit [Zero α] [Add α] [Sub α] in
theorem Shrinks.visitAll {V : Visitor α σ} {dist : Nat → α} {A : Nat → Prop} {Inv : σ → Prop}
    (h : Shrinks V dist A Inv) (l : List Nat) (hl : ∀ i ∈ l, A i) (s : σ) (hs : Inv s) :
    Inv (visitAll V dist l s) ∧ V.max (visitAll V dist l s) ≤ V.max s := by
  induction l generalizing s with
  | nil => exact ⟨hs, le_rfl⟩
  | cons a l ih =>
    have h1 := h s a (hl a (by simp)) hs
    have h2 := ih (fun i hi => hl i (by simp [hi])) _ h1.1
    exact ⟨h2.1, h2.2.trans h1.2⟩

/-- The traversal skips only points whose lower bound `low` exceeds the final `max()`. `P D off` relates the
running distance with the offset array. -/
theorem searchNearest_low (low : Nat → α) (term : Fin d → Nat → α) (P : α → Pt α d → Prop)
    (hstep : ∀ D off j x, P D off → P (D - off j + x) (Function.update off j x))
    (A : Nat → Prop)
    (hlower : ∀ D off i, A i → P D off → (∀ j, off j ≤ term j i) → D ≤ low i) (Inv : σ → Prop) (hV : Shrinks V dist A Inv)
    (t : Tree β) (D : α) (st : Pt α d × σ) (hA : ∀ i ∈ t.elems indices, A i)
    (hG : Guard splitDim pick indices term t) (hP : P D st.1)
    (hoff : ∀ i ∈ t.elems indices, ∀ j, st.1 j ≤ term j i) (hI : Inv st.2) :
    ∃ vis skip, (vis ++ skip).Perm (t.elems indices) ∧
      searchNearest splitDim pick V dist indices t D st = (st.1, visitAll V dist vis st.2) ∧
      ∀ i ∈ skip, V.max (visitAll V dist vis st.2) < low i := by
  induction t generalizing D st with
  | leaf b e =>
    exact ⟨slice indices b e, [], by simp [Tree.elems], by simp [searchNearest], by simp⟩
  | branch data l r ihl ihr =>
    have key : ∀ (t1 t2 : Tree β),
        (∀ (D : α) (st : Pt α d × σ), P D st.1 → (∀ i ∈ t1.elems indices, ∀ j, st.1 j ≤ term j i) →
          Inv st.2 → ∃ vis skip, (vis ++ skip).Perm (t1.elems indices) ∧
          searchNearest splitDim pick V dist indices t1 D st = (st.1, visitAll V dist vis st.2) ∧
          ∀ i ∈ skip, V.max (visitAll V dist vis st.2) < low i) →
        (∀ (D : α) (st : Pt α d × σ), P D st.1 → (∀ i ∈ t2.elems indices, ∀ j, st.1 j ≤ term j i) →
          Inv st.2 → ∃ vis skip, (vis ++ skip).Perm (t2.elems indices) ∧
          searchNearest splitDim pick V dist indices t2 D st = (st.1, visitAll V dist vis st.2) ∧
          ∀ i ∈ skip, V.max (visitAll V dist vis st.2) < low i) →
        (∀ i ∈ t1.elems indices, i ∈ (Tree.branch data l r).elems indices) →
        (∀ i ∈ t2.elems indices, i ∈ (Tree.branch data l r).elems indices) →
        (∀ i ∈ t2.elems indices, (pick data).2 ≤ term (splitDim data) i) →
        ∃ vis skip, (vis ++ skip).Perm (t1.elems indices ++ t2.elems indices) ∧
          (let st1 := searchNearest splitDim pick V dist indices t1 D st
           let oldOffset := st1.1 (splitDim data)
           let D' := D - oldOffset + (pick data).2
           if V.max st1.2 ≥ D' then
            let st' := (Function.update st1.1 (splitDim data) (pick data).2, st1.2)
            let st2 := searchNearest splitDim pick V dist indices t2 D' st'
            (Function.update st2.1 (splitDim data) oldOffset, st2.2)
           else st1) = (st.1, visitAll V dist vis st.2) ∧
          ∀ i ∈ skip, V.max (visitAll V dist vis st.2) < low i := by
      intro t1 t2 h1 h2 hs1 hs2 hg
      obtain ⟨v1, s1, hp1, he1, hk1⟩ := h1 D st hP (fun i hi => hoff i (hs1 i hi)) hI
      have hv1 : ∀ i ∈ v1, A i := fun i hi =>
        hA i (hs1 i (hp1.subset (List.mem_append_left _ hi)))
      have hI1 := (hV.visitAll v1 hv1 st.2 hI).1
      dsimp only
      rw [he1]
      dsimp only
      have hP' := hstep D st.1 (splitDim data) (pick data).2 hP
      have hoff' : ∀ i ∈ t2.elems indices, ∀ j,
          Function.update st.1 (splitDim data) (pick data).2 j ≤ term j i := by
        intro i hi j
        by_cases hj : j = splitDim data
        · subst hj; simpa using hg i hi
        · simpa [Function.update, hj] using hoff i (hs2 i hi) j
      split_ifs with hc
      · obtain ⟨v2, s2, hp2, he2, hk2⟩ := h2 (D - st.1 (splitDim data) + (pick data).2)
          (Function.update st.1 (splitDim data) (pick data).2, visitAll V dist v1 st.2)
          hP' hoff' hI1
        have hv2 : ∀ i ∈ v2, A i := fun i hi =>
          hA i (hs2 i (hp2.subset (List.mem_append_left _ hi)))
        refine ⟨v1 ++ v2, s1 ++ s2, ?_, ?_, ?_⟩
        · have := hp1.append hp2
          refine List.Perm.trans ?_ this
          simp only [List.append_assoc]
          refine List.Perm.append_left _ ?_
          rw [← List.append_assoc, ← List.append_assoc]
          exact List.Perm.append_right _ List.perm_append_comm
        · rw [he2]
          simp [visitAll_append]
        · intro i hi
          rw [visitAll_append]
          rcases List.mem_append.1 hi with hi | hi
          · exact lt_of_le_of_lt (hV.visitAll v2 hv2 _ hI1).2 (hk1 i hi)
          · exact hk2 i hi
      · refine ⟨v1, s1 ++ t2.elems indices, ?_, rfl, ?_⟩
        · rw [← List.append_assoc]
          exact hp1.append_right _
        · intro i hi
          rcases List.mem_append.1 hi with hi | hi
          · exact hk1 i hi
          · exact lt_of_lt_of_le (not_le.1 hc) (hlower _ _ i (hA i (hs2 i hi)) hP' (hoff' i hi))
    have hsl : ∀ i ∈ l.elems indices, i ∈ (Tree.branch data l r).elems indices :=
      fun i hi => List.mem_append_left _ hi
    have hsr : ∀ i ∈ r.elems indices, i ∈ (Tree.branch data l r).elems indices :=
      fun i hi => List.mem_append_right _ hi
    have ihl' := fun D st hP ho hI => ihl D st (fun i hi => hA i (hsl i hi)) hG.2.1 hP ho hI
    have ihr' := fun D st hP ho hI => ihr D st (fun i hi => hA i (hsr i hi)) hG.2.2 hP ho hI
    cases hb : (pick data).1 with
    | true =>
      have hg := hG.1
      simp only [hb, if_true] at hg
      obtain ⟨vis, skip, hp, he, hk⟩ := key l r ihl' ihr' hsl hsr hg
      refine ⟨vis, skip, hp, ?_, hk⟩
      rw [← he]
      simp only [searchNearest, hb, if_true]
    | false =>
      have hg := hG.1
      simp only [hb, if_false, Bool.false_eq_true] at hg
      obtain ⟨vis, skip, hp, he, hk⟩ := key r l ihr' ihl' hsr hsl hg
      refine ⟨vis, skip, hp.trans List.perm_append_comm, ?_, hk⟩
      rw [← he]
      simp only [searchNearest, hb, if_false, Bool.false_eq_true]

/-- The traversal skips only points farther away than the final `max()`. `P D off` relates the
running distance with the offset array. -/
theorem searchNearest_spec (term : Fin d → Nat → α) (P : α → Pt α d → Prop)
    (hstep : ∀ D off j x, P D off → P (D - off j + x) (Function.update off j x))
    (A : Nat → Prop)
    (hlower : ∀ D off i, A i → P D off → (∀ j, off j ≤ term j i) → D ≤ dist i) (Inv : σ → Prop) (hV : Shrinks V dist A Inv)
    (t : Tree β) (D : α) (st : Pt α d × σ) (hA : ∀ i ∈ t.elems indices, A i)
    (hG : Guard splitDim pick indices term t) (hP : P D st.1)
    (hoff : ∀ i ∈ t.elems indices, ∀ j, st.1 j ≤ term j i) (hI : Inv st.2) :
    ∃ vis skip, (vis ++ skip).Perm (t.elems indices) ∧
      searchNearest splitDim pick V dist indices t D st = (st.1, visitAll V dist vis st.2) ∧
      ∀ i ∈ skip, V.max (visitAll V dist vis st.2) < dist i :=
  searchNearest_low splitDim pick V dist indices dist term P hstep A hlower Inv hV t D st hA hG hP hoff
    hI

end

end Pico
