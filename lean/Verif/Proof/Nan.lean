import Verif.Model.Float
import Verif.Model.KdTree
import Mathlib.Data.List.Basic

/-!
# Searches on scalars without an order

Nothing is assumed of `<` and `<=` here, so that the lemmas hold for floating point numbers with NaN.
-/

set_option linter.unusedSectionVars false

namespace Pico

section
variable {α : Type} [LT α] [LE α] [DecidableLT α] [DecidableLE α] [Zero α] [Add α] [Sub α] {d : Nat}
  {β σ : Type}

theorem mem_of_mem_slice {indices : List Nat} {b e i : Nat} (h : i ∈ slice indices b e) : i ∈ indices := by
  unfold slice at h
  exact List.mem_of_mem_drop (List.mem_of_mem_take h)

/-- What every visit keeps, the search keeps. -/
theorem searchNearest_keeps (splitDim : β → Fin d) (pick : β → Bool × α) (V : Visitor α σ) (dist : Nat → α)
    (indices : List Nat) (P : σ → Prop) (h : ∀ s, ∀ i ∈ indices, P s → P (V.visit s i (dist i))) (t : Tree β)
    (D : α) (st : Pt α d × σ) (hs : P st.2) : P (searchNearest splitDim pick V dist indices t D st).2 := by
  induction t generalizing D st with
  | leaf b e =>
    simp only [searchNearest, visitAll]
    have hm : ∀ i ∈ slice indices b e, i ∈ indices := fun i hi => mem_of_mem_slice hi
    generalize slice indices b e = l at hm
    have : ∀ (l : List Nat) (s : σ), (∀ i ∈ l, i ∈ indices) → P s →
        P (l.foldl (fun s i => V.visit s i (dist i)) s) := by
      intro l
      induction l with
      | nil => intro s _ hs; exact hs
      | cons i l ih =>
        intro s hl hs
        exact ih _ (fun j hj => hl j (by simp [hj])) (h s i (hl i (by simp)) hs)
    exact this l st.2 hm hs
  | branch data l r ihl ihr =>
    simp only [searchNearest]
    cases (pick data).1 with
    | true =>
      simp only [if_true]
      split
      · exact ihr _ _ (ihl _ _ hs)
      · exact ihl _ _ hs
    | false =>
      simp only [Bool.false_eq_true, if_false]
      split
      · exact ihl _ _ (ihr _ _ hs)
      · exact ihr _ _ hs

theorem KdTree.searchNearest_keeps (T : KdTree α d β) (x : Pt α d) (V : Visitor α σ) (P : σ → Prop)
    (h : ∀ s, ∀ i ∈ T.data.indices, P s → P (V.visit s i (T.metric.dist x (T.pts i)))) (s : σ) (hs : P s) :
    P (T.searchNearest x V s) :=
  Pico.searchNearest_keeps _ _ _ _ _ P h _ _ _ hs

/-- Insertion keeps a property of all entries. -/
theorem insertLoop_keeps (Q : Neighbor α → Prop) (item : Neighbor α) (hi : Q item) (buf : List (Neighbor α))
    (e : Nat) (hb : ∀ a ∈ buf, Q a) : ∀ a ∈ insertLoop item buf e, Q a := by
  induction e generalizing buf with
  | zero =>
    intro a ha
    rcases List.mem_or_eq_of_mem_set ha with h | rfl
    · exact hb a h
    · exact hi
  | succ e ih =>
    unfold insertLoop
    cases hx : buf[e]? with
    | none => exact hb
    | some x =>
      dsimp only
      split
      · refine ih _ fun a ha => ?_
        rcases List.mem_or_eq_of_mem_set ha with h | rfl
        · exact hb a h
        · exact hb _ (List.mem_of_getElem? hx)
      · intro a ha
        rcases List.mem_or_eq_of_mem_set ha with h | rfl
        · exact hb a h
        · exact hi

theorem insertLoop_length_any (item : Neighbor α) (buf : List (Neighbor α)) (e : Nat) :
    (insertLoop item buf e).length = buf.length := by
  induction e generalizing buf with
  | zero => simp [insertLoop]
  | succ e ih =>
    unfold insertLoop
    cases buf[e]? with
    | none => rfl
    | some x =>
      dsimp only
      split
      · rw [ih, List.length_set]
      · rw [List.length_set]

end

section
variable {K : Type} [Field K] [LinearOrder K] [IsStrictOrderedRing K] {Φ : FloatFormat K} {d : Nat}

namespace Fl

theorem not_nan_lt (a : Fl Φ) : ¬ (Fl.nan : Fl Φ) < a := by
  intro h
  exact Bool.false_ne_true h

theorem not_lt_nan (a : Fl Φ) : ¬ a < (Fl.nan : Fl Φ) := by
  intro h
  cases a <;> exact Bool.false_ne_true h

theorem not_nan_le (a : Fl Φ) : ¬ (Fl.nan : Fl Φ) ≤ a := by
  intro h
  exact Bool.false_ne_true h

theorem not_le_nan (a : Fl Φ) : ¬ a ≤ (Fl.nan : Fl Φ) := by
  intro h
  cases a <;> exact Bool.false_ne_true h

theorem nan_add (a : Fl Φ) : (Fl.nan : Fl Φ) + a = .nan := rfl

theorem add_nan (a : Fl Φ) : a + (Fl.nan : Fl Φ) = .nan := by cases a <;> rfl

theorem nan_sub (a : Fl Φ) : (Fl.nan : Fl Φ) - a = .nan := rfl

theorem sub_nan (a : Fl Φ) : a - (Fl.nan : Fl Φ) = .nan := by cases a <;> rfl

theorem nan_mul (a : Fl Φ) : (Fl.nan : Fl Φ) * a = .nan := rfl

theorem sabs_nan : sabs (Fl.nan : Fl Φ) = .nan := by
  unfold sabs
  rw [if_neg (not_nan_lt _)]

theorem foldl_nan {ι : Type} (f : ι → Fl Φ) (l : List ι) : l.foldl (fun acc i => acc + f i) .nan = .nan := by
  induction l with
  | nil => rfl
  | cons i l ih => rw [List.foldl_cons, nan_add, ih]

theorem foldl_add_nan {ι : Type} (f : ι → Fl Φ) (l : List ι) (acc : Fl Φ) (h : ∃ i ∈ l, f i = .nan) :
    l.foldl (fun acc i => acc + f i) acc = .nan := by
  induction l generalizing acc with
  | nil => simp at h
  | cons i l ih =>
    rw [List.foldl_cons]
    by_cases hi : f i = .nan
    · rw [hi, add_nan, foldl_nan]
    · refine ih _ ?_
      obtain ⟨j, hj, e⟩ := h
      rcases List.mem_cons.1 hj with rfl | hj
      · exact absurd e hi
      · exact ⟨j, hj, e⟩

theorem loopSum_nan (f : Fin d → Fl Φ) {j : Fin d} (h : f j = .nan) : loopSum f = .nan :=
  foldl_add_nan f _ _ ⟨j, List.mem_finRange j, h⟩

end Fl
end

end Pico
