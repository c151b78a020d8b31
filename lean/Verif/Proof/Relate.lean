import Verif.Proof.Exact
import Verif.Proof.Shape

/-!
# Facts about the traversal that hold for any arithmetic

Only an order on the scalars is used; sums, differences and distances are arbitrary functions.
-/

set_option linter.unusedSectionVars false

namespace Pico

section
variable {α : Type} [LT α] [LE α] [DecidableLT α] [DecidableLE α] [Zero α] [Add α] [Sub α] {d : Nat} {β σ τ : Type}

/-- Two runs of the traversal whose visitors cannot be told apart by `max()` stay related. -/
theorem searchNearest_rel (splitDim : β → Fin d) (pick : β → Bool × α) (V : Visitor α σ)
    (W : Visitor α τ) (dist : Nat → α) (indices : List Nat) (R : σ → τ → Prop)
    (hmax : ∀ s t, R s t → V.max s = W.max t)
    (hvisit : ∀ s t i, R s t → R (V.visit s i (dist i)) (W.visit t i (dist i))) (t : Tree β) (D : α)
    (off : Pt α d) (s : σ) (u : τ) (hR : R s u) :
    (searchNearest splitDim pick V dist indices t D (off, s)).1 =
      (searchNearest splitDim pick W dist indices t D (off, u)).1 ∧
    R (searchNearest splitDim pick V dist indices t D (off, s)).2
      (searchNearest splitDim pick W dist indices t D (off, u)).2 := by
  induction t generalizing D off s u with
  | leaf b e =>
    refine ⟨rfl, ?_⟩
    simp only [searchNearest, visitAll]
    generalize slice indices b e = l
    induction l generalizing s u with
    | nil => exact hR
    | cons a l ih =>
      simp only [List.foldl_cons]
      exact ih _ _ (hvisit s u a hR)
  | branch data l r ihl ihr =>
    have key : ∀ (t1 t2 : Tree β),
        (∀ D off s u, R s u → (searchNearest splitDim pick V dist indices t1 D (off, s)).1 =
            (searchNearest splitDim pick W dist indices t1 D (off, u)).1 ∧
          R (searchNearest splitDim pick V dist indices t1 D (off, s)).2
            (searchNearest splitDim pick W dist indices t1 D (off, u)).2) →
        (∀ D off s u, R s u → (searchNearest splitDim pick V dist indices t2 D (off, s)).1 =
            (searchNearest splitDim pick W dist indices t2 D (off, u)).1 ∧
          R (searchNearest splitDim pick V dist indices t2 D (off, s)).2
            (searchNearest splitDim pick W dist indices t2 D (off, u)).2) →
        ∀ D off s u, R s u →
        (let st1 := searchNearest splitDim pick V dist indices t1 D (off, s)
         let su1 := searchNearest splitDim pick W dist indices t1 D (off, u)
         let a := (if V.max st1.2 ≥ D - st1.1 (splitDim data) + (pick data).2 then
            let st2 := searchNearest splitDim pick V dist indices t2
              (D - st1.1 (splitDim data) + (pick data).2)
              (Function.update st1.1 (splitDim data) (pick data).2, st1.2)
            (Function.update st2.1 (splitDim data) (st1.1 (splitDim data)), st2.2)
           else st1)
         let b := (if W.max su1.2 ≥ D - su1.1 (splitDim data) + (pick data).2 then
            let su2 := searchNearest splitDim pick W dist indices t2
              (D - su1.1 (splitDim data) + (pick data).2)
              (Function.update su1.1 (splitDim data) (pick data).2, su1.2)
            (Function.update su2.1 (splitDim data) (su1.1 (splitDim data)), su2.2)
           else su1)
         a.1 = b.1 ∧ R a.2 b.2) := by
      intro t1 t2 h1 h2 D off s u hR
      obtain ⟨e1, e2⟩ := h1 D off s u hR
      dsimp only
      rw [hmax _ _ e2, e1]
      split_ifs
      · obtain ⟨f1, f2⟩ := h2 (D - (searchNearest splitDim pick W dist indices t1 D (off, u)).1
          (splitDim data) + (pick data).2)
          (Function.update (searchNearest splitDim pick W dist indices t1 D (off, u)).1 (splitDim data)
            (pick data).2) _ _ e2
        exact ⟨by rw [f1], f2⟩
      · exact ⟨e1, e2⟩
    cases hb : (pick data).1 with
    | true => simpa only [searchNearest, hb, if_true] using key l r ihl ihr D off s u hR
    | false => simpa only [searchNearest, hb, if_false, Bool.false_eq_true] using key r l ihr ihl D off s u hR

theorem elems_eq_ranges (indices : List Nat) (t : Tree β) :
    t.elems indices = (Spec.ranges t).flatMap fun r => slice indices r.1 r.2 := by
  induction t with
  | leaf b e => simp [Tree.elems, ranges_leaf]
  | branch data l r ihl ihr => rw [Tree.elems, ihl, ihr, ranges_branch, List.flatMap_append]

end

section Knn
variable {α : Type} [LinearOrder α]

theorem knnMax_le_big {N : Num α} {init seen : List (Neighbor α)} {s : KnnState α}
    {L R : List (Neighbor α)} (h : KnnInv N init seen s L R)
    (hlast : ∃ x, init.getLast? = some x ∧ x.distance = N.big) : knnMax N s ≤ N.big := by
  by_cases hl : L.length < init.length
  · rw [knnMax_not_full h hlast hl]
  · have hpos : 0 < init.length := by
      obtain ⟨x, hx, _⟩ := hlast
      cases init with
      | nil => simp at hx
      | cons _ _ => simp
    obtain ⟨L', x, hx, hm⟩ := knnMax_full h (le_antisymm h.le (not_lt.1 hl)) hpos
    rw [hm]
    exact (h.small x (by rw [hx]; simp)).le

/-- Points at distance `max()` or more are never recorded. -/
theorem knn_visitAll_filter (N : Num α) (dist : Nat → α) (init : List (Neighbor α))
    (hlast : ∃ x, init.getLast? = some x ∧ x.distance = N.big) (l : List Nat)
    {seen : List (Neighbor α)} {s : KnnState α} {L R : List (Neighbor α)} (h : KnnInv N init seen s L R) :
    visitAll (knnVisitor N) dist l s =
      visitAll (knnVisitor N) dist (l.filter fun i => decide (dist i < N.big)) s := by
  induction l generalizing seen s L R with
  | nil => rfl
  | cons a l ih =>
    by_cases ha : dist a < N.big
    · obtain ⟨⟨L', R', h'⟩, _⟩ := knnVisit_inv h hlast a (dist a) ha
      rw [List.filter_cons_of_pos (by simpa using ha)]
      exact ih h'
    · rw [List.filter_cons_of_neg (by simpa using ha)]
      have hv : knnVisit N s a (dist a) = s := by
        unfold knnVisit
        rw [if_neg]
        exact not_lt.2 ((knnMax_le_big h hlast).trans (not_lt.1 ha))
      have : visitAll (knnVisitor N) dist (a :: l) s =
          visitAll (knnVisitor N) dist l (knnVisit N s a (dist a)) := rfl
      rw [this, hv]
      exact ih h

/-- The states of two k-nn visitors that differ only in the entries not yet written. -/
def KnnSame (i₁ i₂ : List (Neighbor α)) (s t : KnnState α) : Prop :=
  s = t ∨ ∃ L, L.length < i₁.length ∧ L.length < i₂.length ∧
    L.Pairwise (fun a b => a.distance ≤ b.distance) ∧
    s = ⟨L ++ i₁.drop L.length, L.length⟩ ∧ t = ⟨L ++ i₂.drop L.length, L.length⟩

theorem knnMax_partial {N : Num α} {init : List (Neighbor α)}
    (hlast : ∃ x, init.getLast? = some x ∧ x.distance = N.big) (L : List (Neighbor α))
    (hl : L.length < init.length) : knnMax N ⟨L ++ init.drop L.length, L.length⟩ = N.big := by
  obtain ⟨x, hx, hd⟩ := hlast
  unfold knnMax
  rw [List.getLast?_append]
  have : (init.drop L.length).getLast? = some x := by
    rw [List.getLast?_drop, if_neg (by omega), hx]
  rw [this]
  simpa using hd

theorem knnVisit_partial {N : Num α} {init : List (Neighbor α)}
    (hlast : ∃ x, init.getLast? = some x ∧ x.distance = N.big) (L : List (Neighbor α))
    (hl : L.length < init.length) (hs : L.Pairwise fun a b => a.distance ≤ b.distance) (i : Nat) (x : α) :
    knnVisit N ⟨L ++ init.drop L.length, L.length⟩ i x =
      if x < N.big then ⟨ins ⟨i, x⟩ L ++ init.drop (L.length + 1), L.length + 1⟩
      else ⟨L ++ init.drop L.length, L.length⟩ := by
  unfold knnVisit
  rw [knnMax_partial hlast L hl]
  by_cases hx : x < N.big
  · rw [if_pos hx, if_pos hx]
    have hlen : (L ++ init.drop L.length).length = init.length := by simp; omega
    dsimp only
    rw [hlen, if_pos hl]
    obtain ⟨y, B, hyB⟩ : ∃ y B, init.drop L.length = y :: B := by
      cases hd : init.drop L.length with
      | nil => rw [List.drop_eq_nil_iff] at hd; omega
      | cons y B => exact ⟨y, B, rfl⟩
    have hB : B = init.drop (L.length + 1) := by
      have := congrArg List.tail hyB
      simpa using this.symm
    unfold insertSorted
    rw [hyB, Nat.add_sub_cancel, insertLoop_eq _ _ _ _ hs, hB]
  · rw [if_neg hx, if_neg hx]

theorem knnSame_max {N : Num α} {i₁ i₂ : List (Neighbor α)}
    (h₁ : ∃ x, i₁.getLast? = some x ∧ x.distance = N.big)
    (h₂ : ∃ x, i₂.getLast? = some x ∧ x.distance = N.big) {s t : KnnState α}
    (h : KnnSame i₁ i₂ s t) : knnMax N s = knnMax N t := by
  rcases h with rfl | ⟨L, l1, l2, _, rfl, rfl⟩
  · rfl
  · rw [knnMax_partial h₁ L l1, knnMax_partial h₂ L l2]

theorem knnSame_visit {N : Num α} {i₁ i₂ : List (Neighbor α)} (hlen : i₁.length = i₂.length)
    (h₁ : ∃ x, i₁.getLast? = some x ∧ x.distance = N.big)
    (h₂ : ∃ x, i₂.getLast? = some x ∧ x.distance = N.big) {s t : KnnState α}
    (h : KnnSame i₁ i₂ s t) (i : Nat) (x : α) : KnnSame i₁ i₂ (knnVisit N s i x) (knnVisit N t i x) := by
  rcases h with rfl | ⟨L, l1, l2, hs, rfl, rfl⟩
  · exact Or.inl rfl
  · rw [knnVisit_partial h₁ L l1 hs, knnVisit_partial h₂ L l2 hs]
    by_cases hx : x < N.big
    · simp only [if_pos hx]
      by_cases hf : L.length + 1 < i₁.length
      · right
        refine ⟨ins ⟨i, x⟩ L, by rw [ins_length]; exact hf, by rw [ins_length]; omega,
          ins_sorted _ _ hs, ?_, ?_⟩ <;> rw [ins_length]
      · left
        rw [List.drop_eq_nil_of_le (by omega), List.drop_eq_nil_of_le (by omega)]
    · simp only [if_neg hx]
      exact Or.inr ⟨L, l1, l2, hs, rfl, rfl⟩

end Knn

end Pico
