import Verif.Model.KdTree
import Mathlib.Data.List.Sort
import Mathlib.Algebra.Order.Ring.Int
import Mathlib.Algebra.Order.Ring.Rat
import Mathlib.Data.Fin.VecNotation

/-!
# Reference instances

Concrete implementations of the standard library contracts and concrete scalar types, used to show
that the hypotheses of the theorems can be met.  No theorem about all inputs depends on them.
-/

namespace Pico.Ref

/-- `!(b < a)` for a strict weak ordering `<`. -/
def leOf {τ : Type} (lt : τ → τ → Bool) (a b : τ) : Prop := lt b a = false

instance {τ : Type} (lt : τ → τ → Bool) : DecidableRel (leOf lt) :=
  fun a b => inferInstanceAs (Decidable (lt b a = false))

theorem leOf_total {τ : Type} {lt : τ → τ → Bool} {l : List τ} (h : StrictWeakOn lt l) {a b : τ} (ha : a ∈ l)
    (hb : b ∈ l) : leOf lt a b ∨ leOf lt b a := by
  unfold leOf
  cases hba : lt b a with
  | false => exact Or.inl rfl
  | true =>
    refine Or.inr ?_
    by_contra hc
    have h1 := h.trans b hb a ha b hb hba (by simpa using hc)
    rw [h.irrefl b hb] at h1
    exact absurd h1 (by simp)

theorem leOf_trans {τ : Type} {lt : τ → τ → Bool} {l : List τ} (h : StrictWeakOn lt l) {a b c : τ} (ha : a ∈ l)
    (hb : b ∈ l) (hc : c ∈ l) (h1 : leOf lt a b) (h2 : leOf lt b c) : leOf lt a c := by
  unfold leOf at *
  by_contra hca'
  have hca : lt c a = true := by simpa using hca'
  cases hab : lt a b with
  | true =>
    have := h.trans c hc a ha b hb hca hab
    rw [h2] at this
    exact absurd this (by simp)
  | false =>
    cases hbc : lt b c with
    | true =>
      have := h.trans b hb c hc a ha hbc hca
      rw [h1] at this
      exact absurd this (by simp)
    | false =>
      have := (h.incomp a ha b hb c hc hab h1 hbc h2).2
      rw [this] at hca
      exact absurd hca (by simp)

/-- Insertion sort as `std::sort` / `std::nth_element`. -/
def isort {τ : Type} (lt : τ → τ → Bool) (l : List τ) : List τ := l.insertionSort (leOf lt)

theorem isort_perm {τ : Type} (lt : τ → τ → Bool) (l : List τ) : (isort lt l).Perm l :=
  List.perm_insertionSort _ l

theorem isort_sorted {τ : Type} (lt : τ → τ → Bool) (l : List τ) (h : StrictWeakOn lt l) :
    (isort lt l).Pairwise (leOf lt) := by
  have key : ∀ (a : τ) (m : List τ), a ∈ l → (∀ x ∈ m, x ∈ l) → m.Pairwise (leOf lt) →
      (m.orderedInsert (leOf lt) a).Pairwise (leOf lt) := by
    intro a m ha
    induction m with
    | nil => intro _ _; simp
    | cons b m ih =>
      intro hm hs
      rw [List.pairwise_cons] at hs
      rw [List.orderedInsert_cons]
      split
      · rename_i hab
        refine List.pairwise_cons.2 ⟨fun x hx => ?_, List.pairwise_cons.2 hs⟩
        rcases List.mem_cons.1 hx with rfl | hx
        · exact hab
        · exact leOf_trans h ha (hm b (by simp)) (hm x (by simp [hx])) hab (hs.1 x hx)
      · rename_i hab
        refine List.pairwise_cons.2 ⟨fun x hx => ?_, ih (fun x hx => hm x (by simp [hx])) hs.2⟩
        rcases (List.mem_orderedInsert _).1 hx with rfl | hx
        · exact (leOf_total h ha (hm b (by simp))).resolve_left hab
        · exact hs.1 x hx
  have all : ∀ m : List τ, (∀ x ∈ m, x ∈ l) → (m.insertionSort (leOf lt)).Pairwise (leOf lt) := by
    intro m
    induction m with
    | nil => intro _; simp
    | cons a m ih =>
      intro hm
      rw [List.insertionSort_cons]
      refine key a _ (hm a (by simp)) (fun x hx => ?_) (ih fun x hx => hm x (by simp [hx]))
      exact hm x (by simp [(List.mem_insertionSort _).1 hx])
  exact all l fun _ hx => hx

/-- A conforming standard library. -/
def std : Std where
  partition p l := (l.filter p ++ l.filter (fun x => !p x), (l.filter p).length)
  nth lt _ l := isort lt l
  partition_perm p l := List.filter_append_perm p l
  partition_le p l := List.length_filter_le p l
  partition_left p l := by
    intro x hx
    simp only [List.take_left'] at hx
    exact (List.mem_filter.1 hx).2
  partition_right p l := by
    intro x hx
    simp only [List.drop_left'] at hx
    simpa using (List.mem_filter.1 hx).2
  nth_perm_on lt _ l _ := isort_perm lt l
  nth_split_on lt n l h _ := by
    have := isort_sorted lt l h
    rw [← List.take_append_drop n (isort lt l), List.pairwise_append] at this
    exact this.2.2
  nth_min_on lt n l h hn := by
    intro x hx y hy
    have hs := (isort_sorted lt l h).drop (i := n)
    have hd : (isort lt l).drop n = x :: (isort lt l).drop (n + 1) := by
      obtain ⟨hlt, rfl⟩ := List.getElem_of_getElem? hx
      exact List.drop_eq_getElem_cons hlt
    rw [hd, List.pairwise_cons] at hs
    rw [hd] at hy
    rcases List.mem_cons.1 hy with rfl | hy
    · exact h.irrefl _ ((isort_perm lt l).mem_iff.1 (List.mem_of_getElem? hx))
    · exact hs.1 y hy

/-- A conforming `std::sort`. -/
def sorter (τ : Type) : StdSort τ where
  sort := isort
  sort_perm_on lt l _ := isort_perm lt l
  sort_sorted_on lt l h := isort_sorted lt l h

/-- A 32-bit-like integer scalar type: `x * int(0.5)` is `0`, `x / int(2.0)` truncates. -/
def intNum : Num Int where
  low := -2147483648
  big := 2147483647
  mulHalf _ := 0
  divTwo x := x.tdiv 2

/-- Rational scalars. -/
def ratNum : Num Rat where
  low := -1000000
  big := 1000000
  mulHalf x := x * (1 / 2)
  divTwo x := x / 2

end Pico.Ref

namespace Pico

/-- Boolean test of a finished outcome, for checking concrete cases by evaluation. -/
def Outcome.check {τ : Type} (x : Outcome τ) (p : τ → Bool) : Bool :=
  match x with
  | .ok a => p a
  | .ub => false
  | .oof => false

theorem Outcome.exists_of_check {τ : Type} {x : Outcome τ} {p : τ → Bool}
    (h : x.check p = true) : ∃ a, x = .ok a ∧ p a = true := by
  cases x with
  | ok a => exact ⟨a, rfl, h⟩
  | ub => simp [Outcome.check] at h
  | oof => simp [Outcome.check] at h

namespace Ref

/-- Five integer points in the plane, two of them equal. -/
def pts5 : Nat → Pt Int 2
  | 0 => ![0, 0]
  | 1 => ![4, 1]
  | 2 => ![3, 7]
  | 3 => ![3, 7]
  | _ => ![9, 2]

/-- Sliding midpoint rule, at most one point per leaf, bounds from the points. -/
def optsSliding (α : Type) (d : Nat) : BuildOpts α d := ⟨std, .sliding, .maxLeafSize 1, .fromSpace, 32⟩

/-- Median rule, at most two points per leaf. -/
def optsMedian (α : Type) (d : Nat) : BuildOpts α d := ⟨std, .median, .maxLeafSize 2, .fromSpace, 32⟩

/-- Midpoint rule, depth at most three. -/
def optsMidpoint (α : Type) (d : Nat) : BuildOpts α d :=
  ⟨std, .midpoint, .maxLeafDepth 3, .fromSpace, 32⟩

/-- Four rational points on the circle. -/
def circle4 : Nat → Pt Rat 1
  | 0 => ![1 / 10]
  | 1 => ![9 / 10]
  | 2 => ![1 / 2]
  | _ => ![3 / 10]

/-- Four rational poses of SE(2). -/
def poses4 : Nat → Pt Rat 3
  | 0 => ![0, 0, 1 / 10]
  | 1 => ![0, 1, 9 / 10]
  | 2 => ![2, 0, 1 / 2]
  | _ => ![2, 2, 3 / 10]

end Ref

end Pico
