import Verif.Model.Basic
import Verif.Model.Std

/-!
# The oracles of the tests (test/pico_tree/common.hpp)

The helpers run a tree and compare its results with a brute force search.  They are modelled as functions of the
results: `.ok true` if no expectation failed, `.ub` if a helper reads behind the end of something.
-/

namespace Pico.TestHelpers

variable {α : Type} [LT α] [LE α] [DecidableLT α] [DecidableLE α]

/-- An implementation of `std::nth_element` for a value type ([alg.nth.element]). -/
structure StdNth (τ : Type) where
  nth : (τ → τ → Bool) → Nat → List τ → List τ
  nth_perm : ∀ lt n l, StrictWeak lt → (nth lt n l).Perm l
  nth_split : ∀ lt n l, StrictWeak lt → n < l.length →
    ∀ x ∈ (nth lt n l).take n, ∀ y ∈ (nth lt n l).drop n, lt y x = false
  nth_min : ∀ lt n l, StrictWeak lt → n < l.length →
    ∀ x, (nth lt n l)[n]? = some x → ∀ y ∈ (nth lt n l).drop n, lt y x = false

/-- `search_knn` (common.hpp:54-79), the brute force reference. For `k = 0` or no points the iterator is moved before
the beginning of the vector. -/
def searchKnn (A : StdNth (Neighbor α)) (S : StdSort (Neighbor α)) (n k : Nat) (dist : Nat → α) :
    Outcome (List (Neighbor α)) :=
  let knn := (List.range n).map fun i => (⟨i, dist i⟩ : Neighbor α)
  let maxK := min k n
  if maxK = 0 then .ub
  else .ok (S.sort Neighbor.lt ((A.nth Neighbor.lt (maxK - 1) knn).take maxK))

/-- `test_box` (common.hpp:81-128) for a tree of `n` points that reported `idxs`; `contains` is the box. -/
def testBox (n : Nat) (contains : Nat → Bool) (idxs : List Nat) : Outcome Bool :=
  if idxs.all fun j => decide (j < n) then
    .ok (idxs.all contains && (List.range n).countP contains == idxs.length)
  else .ub

/-- `test_radius` (common.hpp:130-174) for a tree of `n` points at the distances `dist` from the query: `radius` and
`e` are `lp_radius` and `lp_scale`, `floatEq` is `EXPECT_FLOAT_EQ`. -/
def testRadius [Mul α] [DecidableEq α] (floatEq : α → α → Bool) (n : Nat) (dist : Nat → α) (radius e : α)
    (exact apprx : List (Neighbor α)) : Outcome Bool :=
  if (exact ++ apprx).all fun r => decide (r.index < n) then
    let count := (List.range n).countP fun j => decide (dist j ≤ radius)
    .ok ((exact.all fun r => decide (dist r.index ≤ radius) && decide (dist r.index = r.distance)) &&
      (apprx.all fun r => decide (dist r.index ≤ radius) && floatEq (dist r.index) (r.distance * e)) &&
      decide (count = exact.length) && decide (apprx.length ≤ count))
  else .ub

/-- `test_knn` (common.hpp:176-202): a different number of exact results ends the test, the number of approximate
results is not looked at. `floatLe` is `testing::FloatLE`. -/
def testKnn (A : StdNth (Neighbor α)) (S : StdSort (Neighbor α)) (floatEq floatLe : α → α → Bool) (n k : Nat)
    (dist : Nat → α) (exact apprx : List (Neighbor α)) : Outcome Bool :=
  (searchKnn A S n k dist).bind fun compare =>
    if compare.length = exact.length then
      if compare.length ≤ apprx.length then
        .ok (((exact.zip compare).all fun p => floatEq p.1.distance p.2.distance) &&
          ((apprx.zip exact).all fun p => floatLe p.1.distance p.2.distance))
      else .ub
    else .ok false

end Pico.TestHelpers
