import Mathlib.Data.List.Basic
import Mathlib.Data.List.Perm.Basic
import Mathlib.Data.List.Sort

/-!
# The parts of the C++ standard library the builder relies on

`std::partition`, `std::nth_element` and `std::sort` are described by their contracts in the C++
standard ([alg.partitions], [alg.nth.element], [sort]).  Every theorem about trees holds for every
implementation `S : Std` of these contracts.
-/

namespace Pico

/-- Strict weak ordering, the requirement of the standard on comparators. -/
structure StrictWeak {τ : Type} (lt : τ → τ → Bool) : Prop where
  irrefl : ∀ a, lt a a = false
  trans : ∀ a b c, lt a b = true → lt b c = true → lt a c = true
  incomp : ∀ a b c, lt a b = false → lt b a = false → lt b c = false → lt c b = false →
    lt a c = false ∧ lt c a = false

/-- The same for the values in a range only.  The standard asks for a strict weak ordering of "the values"
([alg.sorting]); a floating point comparison meets it on ranges without NaN. -/
structure StrictWeakOn {τ : Type} (lt : τ → τ → Bool) (l : List τ) : Prop where
  irrefl : ∀ a ∈ l, lt a a = false
  trans : ∀ a ∈ l, ∀ b ∈ l, ∀ c ∈ l, lt a b = true → lt b c = true → lt a c = true
  incomp : ∀ a ∈ l, ∀ b ∈ l, ∀ c ∈ l, lt a b = false → lt b a = false → lt b c = false → lt c b = false →
    lt a c = false ∧ lt c a = false

theorem StrictWeak.on {τ : Type} {lt : τ → τ → Bool} (h : StrictWeak lt) (l : List τ) : StrictWeakOn lt l where
  irrefl a _ := h.irrefl a
  trans a _ b _ c _ := h.trans a b c
  incomp a _ b _ c _ := h.incomp a b c

/-- Implementations of `std::partition` and `std::nth_element` on index ranges. `partition p l`
returns the new contents and the position of the returned iterator. -/
structure Std where
  partition : (Nat → Bool) → List Nat → List Nat × Nat
  nth : (Nat → Nat → Bool) → Nat → List Nat → List Nat
  partition_perm : ∀ p l, (partition p l).1.Perm l
  partition_le : ∀ p l, (partition p l).2 ≤ l.length
  partition_left : ∀ p l, ∀ x ∈ (partition p l).1.take (partition p l).2, p x = true
  partition_right : ∀ p l, ∀ x ∈ (partition p l).1.drop (partition p l).2, p x = false
  nth_perm_on : ∀ lt n l, StrictWeakOn lt l → (nth lt n l).Perm l
  /-- "for every iterator i in [first, nth) and j in [nth, last): !comp(*j, *i)" -/
  nth_split_on : ∀ lt n l, StrictWeakOn lt l → n < l.length →
    ∀ x ∈ (nth lt n l).take n, ∀ y ∈ (nth lt n l).drop n, lt y x = false
  /-- "the element in the position pointed to by nth is the element that would be in that position
  if the whole range were sorted": nothing at or after the position is smaller. -/
  nth_min_on : ∀ lt n l, StrictWeakOn lt l → n < l.length →
    ∀ x, (nth lt n l)[n]? = some x → ∀ y ∈ (nth lt n l).drop n, lt y x = false

namespace Std
variable (S : Std) (lt : Nat → Nat → Bool) (n : Nat) (l : List Nat) (h : StrictWeak lt)
include h

theorem nth_perm : (S.nth lt n l).Perm l := S.nth_perm_on lt n l (h.on l)

theorem nth_split (hn : n < l.length) : ∀ x ∈ (S.nth lt n l).take n, ∀ y ∈ (S.nth lt n l).drop n,
    lt y x = false := S.nth_split_on lt n l (h.on l) hn

theorem nth_min (hn : n < l.length) : ∀ x, (S.nth lt n l)[n]? = some x → ∀ y ∈ (S.nth lt n l).drop n,
    lt y x = false := S.nth_min_on lt n l (h.on l) hn

end Std

/-- An implementation of `std::sort` for a value type. -/
structure StdSort (τ : Type) where
  sort : (τ → τ → Bool) → List τ → List τ
  sort_perm_on : ∀ lt l, StrictWeakOn lt l → (sort lt l).Perm l
  sort_sorted_on : ∀ lt l, StrictWeakOn lt l → (sort lt l).Pairwise (fun a b => lt b a = false)

theorem StdSort.sort_perm {τ : Type} (S : StdSort τ) (lt : τ → τ → Bool) (l : List τ) (h : StrictWeak lt) :
    (S.sort lt l).Perm l := S.sort_perm_on lt l (h.on l)

theorem StdSort.sort_sorted {τ : Type} (S : StdSort τ) (lt : τ → τ → Bool) (l : List τ) (h : StrictWeak lt) :
    (S.sort lt l).Pairwise (fun a b => lt b a = false) := S.sort_sorted_on lt l (h.on l)

end Pico
