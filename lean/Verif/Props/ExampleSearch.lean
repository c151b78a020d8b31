import Verif.Model.ExampleSearch
import Verif.Props.Builder
import Verif.Props.Counter
import Verif.Props.TopoError
import Verif.Props.TopoRounding
import Verif.Props.UnitTests

/-!
# C139: the example programs with random points, in single precision
-/

set_option linter.unusedSectionVars false

namespace Pico.Props

open Pico.Examples Pico.Gtest Spec

theorem height_nodes {β : Type} (t : Tree β) : 2 * height t + 1 ≤ nodes t := by
  induction t with
  | leaf => simp [height, nodes]
  | branch b l r hl hr => simp only [height, nodes]; omega

section
variable {α : Type} [LinearOrder α] [Zero α] [Add α] [Sub α] {d : Nat} {β : Type} {tag : SpaceTag α d β}
  {M : Metric α d} {N : Num α} {pts : Nat → Pt α d} {n : Nat} {o : BuildOpts α d} {fuel : Nat} {T : KdTree α d β}

/-- A tree without empty leaves is less high than it has points. -/
theorem height_lt (h : KdTree.make tag M N pts n o fuel = .ok T) (hn : 0 < n) (hr : o.rule ≠ .midpoint) :
    height T.data.root < n := by
  have h1 := (c20_nonempty h hn hr).2.2
  have h2 := height_nodes T.data.root
  omega

end

/-- Compound rounding errors of a tree of at most `2^20` points. -/
theorem pow_height {h n : Nat} (hh : h < n) (hn : n ≤ 2 ^ 20) : ((1 : ℚ) + 1 / 2 ^ 24) ^ (2 * h) ≤ 8 / 7 := by
  have hb := one_add_mul_le_pow (a := -(1 / 2 ^ 24 : ℚ)) (by norm_num) (2 * h)
  have h1 : ((2 * h : Nat) : ℚ) ≤ 2 ^ 21 := by
    have : 2 * h ≤ 2 ^ 21 := by omega
    exact_mod_cast this
  have h2 : (7 / 8 : ℚ) ≤ (1 + -(1 / 2 ^ 24)) ^ (2 * h) := by
    refine le_trans ?_ hb
    norm_num at h1 ⊢
    linarith
  have h3 : ((1 : ℚ) + 1 / 2 ^ 24) ^ (2 * h) * (1 + -(1 / 2 ^ 24)) ^ (2 * h) ≤ 1 := by
    rw [← mul_pow]
    exact pow_le_one₀ (by norm_num) (by norm_num)
  have h4 : (0 : ℚ) < (1 + 1 / 2 ^ 24) ^ (2 * h) := by positivity
  nlinarith

/-- What "nearly" means for such a tree and points in the plane. -/
theorem ratio_of_nearly {h n : Nat} (hh : h < n) (hn : n ≤ 2 ^ 20) {a b : ℚ} (ha : 0 ≤ a) (hb : 0 ≤ b)
    (hle : (1 - 1 / 2 ^ 24) ^ 2 * a ≤ (1 + 1 / 2 ^ 24) ^ (2 * h) * b) : a ≤ 23 / 20 * b := by
  have h1 := mul_le_mul_of_nonneg_right (pow_height hh hn) hb
  have h2 : (1000 / 1001 : ℚ) * a ≤ (1 - 1 / 2 ^ 24) ^ 2 * a := mul_le_mul_of_nonneg_right (by norm_num) ha
  linarith

section
variable {d n : Nat} {β : Type} {pts : Nat → Pt F32 d}

theorem make_between (tag : SpaceTag F32 d β) (M : Metric F32 d) (S : Std) {leaf : Nat} (hl : 1 ≤ leaf) (hl' : leaf < 2 ^ 31)
    (hd : 0 < d) (hn : 0 < n) {b : F32} (hb : (0 : F32) ≤ b) (hb' : b ≤ lit 1000)
    (hp : ∀ i < n, ∀ j, 0 ≤ pts i j ∧ pts i j ≤ b) :
    ∃ fuel T, (∀ f ≥ fuel, KdTree.make tag M floatNum pts n ⟨S, .sliding, .maxLeafSize leaf, .fromSpace, 32⟩ f = .ok T) ∧
      Representable floatNum pts n ⟨S, .sliding, .maxLeafSize leaf, .fromSpace, 32⟩ := by
  have hlow : floatNum.low ≤ 0 := by decide +kernel
  have hbig : lit 1000 ≤ floatNum.big := by decide +kernel
  have hsafe : SplitSafe floatNum 0 (lit 1000) := splitSafe_rounding (R := ieee 23 (-149)) (by decide +kernel)
  obtain ⟨fuel, T, hT⟩ := c22_terminates_partial (o := ⟨S, .sliding, .maxLeafSize leaf, .fromSpace, 32⟩) tag M hsafe hd hn
    (by simp) (fun m hm => by cases hm; exact ⟨hl, hl'⟩) (fun i hi j => ⟨(hp i hi j).1, (hp i hi j).2.trans hb'⟩)
    ⟨hlow.trans (hb.trans hb'), (hb.trans hb').trans hbig⟩ (fun mn mx h => by cases h)
  exact ⟨fuel, T, hT, hlow.trans ((hb.trans hb').trans hbig),
    fun i hi j => ⟨hlow.trans (hp i hi j).1, (hp i hi j).2.trans (hb'.trans hbig)⟩, trivial, fun h => by cases h⟩

end

theorem printed_of {d n : Nat} {pts : Nat → Pt F32 d} {l : List (Neighbor F32)} (h : ∀ x ∈ l, x.index < n) :
    printed pts n l = .ok (l.map fun x => (x.index, x.distance, pts x.index)) := by
  unfold printed
  rw [if_pos (by simpa using h)]

theorem index_of_all {n : Nat} {dist : Nat → F32} {x : Neighbor F32} (h : x ∈ all n dist) : x.index < n := by
  simp only [all, List.mem_map, List.mem_range] at h
  obtain ⟨i, hi, rfl⟩ := h
  exact hi

theorem range_of_vector {d n : Nat} {β : Type} {T : KdTree F32 d β} (hT : T.n = n) {q : Pt F32 d}
    {knn : List (Neighbor F32)} {k : Nat} (hk : knn.length = k) (hkn : k ≤ n) :
    T.searchKnnRange q knn = T.searchKnn q k knn := by
  unfold KdTree.searchKnn KdTree.resize
  rw [hT, min_eq_left hkn, hk, Nat.sub_self, ← hk, List.take_length, List.replicate_zero, List.append_nil]

/-- C139 (`search_s1` of kd_tree_search.cpp): for all points on the circle, the output is the eight points closest to 1
with respect to the computed distances, in order, with their distances and coordinates. -/
theorem c139_search_s1 (S : Std) {n : Nat} (hn : 8 ≤ n) {random : Nat → Pt F32 1}
    (hp : ∀ i < n, ∀ j, 0 ≤ random i j ∧ random i j ≤ 1) :
    ∃ fuel, ∀ f ≥ fuel, ∀ knn, knn.length = 8 → ∃ (dist : Nat → F32) (out : List (Neighbor F32)),
      (∀ i, (dist i).1 = roundedCircle (ieee 23 (-149)) ![lit 1] (random i)) ∧ IsKnn n 8 dist out ∧
      searchS1 floatNum S random n knn f = .ok (out.map fun x => (x.index, x.distance, random x.index)) := by
  obtain ⟨fuel, T, hT, hR⟩ := make_between (topologicalTag F32 1) (metricSO2 F32) S (leaf := 10) (by norm_num)
    (by norm_num) one_pos (by omega : 0 < n) (b := 1) (by decide +kernel) (by decide +kernel) hp
  refine ⟨fuel, fun f hf knn hk => ?_⟩
  have hc : CircleOk (metricSO2 F32).space random n ⟨S, .sliding, .maxLeafSize 10, .fromSpace, 32⟩ ![lit 1] :=
    ⟨fun i hi j _ => hp i hi j, fun j _ => by fin_cases j; decide +kernel, fun h => by cases h⟩
  have hle : ∀ i < n, roundedCircle (ieee 23 (-149)) ![lit 1] (random i) < floatNum.big.1 := by
    intro i hi
    refine lt_of_le_of_lt (min_le_left _ _) ?_
    have h1 : (0 : ℚ) ≤ (random i 0).1 := (hp i hi 0).1
    have h2 : (random i 0).1 ≤ (1 : F32).1 := (hp i hi 0).2
    have e1 : (1 : F32).1 = 1 := by decide +kernel
    have e2 : (lit 1).1 = 1 := by decide +kernel
    have h3 : (ieee 23 (-149)).rd ((lit 1).1 - (random i 0).1) ≤ (ieee 23 (-149)).rd 1 :=
      (ieee 23 (-149)).mono _ _ (by rw [e2]; linarith)
    have h4 : (ieee 23 (-149)).rd 0 ≤ (ieee 23 (-149)).rd ((lit 1).1 - (random i 0).1) :=
      (ieee 23 (-149)).mono _ _ (by rw [e2]; linarith)
    rw [(ieee 23 (-149)).rd_zero] at h4
    show |(ieee 23 (-149)).rd ((lit 1).1 - (random i 0).1)| < _
    rw [abs_of_nonneg h4]
    exact lt_of_le_of_lt h3 (by decide +kernel)
  obtain ⟨dist, h1, -, h3, -⟩ := c70_so2 (hT f hf) hR (by omega) ![lit 1] hc hle
  obtain ⟨out, h4, h5⟩ := h3 8 knn (by norm_num)
  refine ⟨dist, out, h1, h5, ?_⟩
  unfold searchS1 neighbors
  rw [hT f hf]
  show (T.searchKnnRange _ _).bind _ = _
  rw [range_of_vector (KdTree.make_ok (hT f hf)).2.2.2.2.1 hk hn, h4]
  obtain ⟨rest, h6, -⟩ := h5.rest
  exact printed_of fun x hx => index_of_all (h6.mem_iff.1 (List.mem_append_left _ hx))

/-! ### Points in the plane -/

theorem loopSum_two {f : Fin 2 → F32} : loopSum f = 0 + f 0 + f 1 := rfl

theorem sub_le_of_between {a c b : F32} (ha : 0 ≤ a) (hc : c ≤ b) : c - a ≤ b - 0 :=
  (ieee 23 (-149)).laws.sub_mono _ _ _ _ hc ha

theorem sub_nonneg_of {a c : F32} (h : a ≤ c) : 0 ≤ c - a := by
  rw [← (ieee 23 (-149)).laws.sub_self a]
  exact (ieee 23 (-149)).laws.sub_mono _ _ _ _ h le_rfl

/-- Distances between points of a square. -/
theorem axis_le {M : Metric F32 2} (hM : AxisMetric M) {x y : Pt F32 2} {b c : F32}
    (hx : ∀ j, 0 ≤ x j ∧ x j ≤ b) (hy : ∀ j, 0 ≤ y j ∧ y j ≤ b) (hc : M.one (b - 0) ≤ c) :
    M.dist x y ≤ 0 + c + c := by
  have key : ∀ j, M.one (x j - y j) ≤ c := by
    intro j
    refine le_trans ?_ hc
    rcases le_total (y j) (x j) with h | h
    · exact hM.mono _ _ (sub_nonneg_of h) (sub_le_of_between (hy j).1 (hx j).2)
    · rw [hM.symm]
      exact hM.mono _ _ (sub_nonneg_of h) (sub_le_of_between (hx j).1 (hy j).2)
  rw [hM.dist_eq, loopSum_two]
  exact (ieee 23 (-149)).laws.add_mono _ _ _ _
    ((ieee 23 (-149)).laws.add_mono _ _ _ _ le_rfl (key 0)) (key 1)

theorem big_of {h n : Nat} (hh : h < n) (hn : n ≤ 2 ^ 20) {x c : F32} (hx : x ≤ c)
    (hc : (8 / 7 : ℚ) * c.1 < (1 - 1 / 2 ^ 24) ^ 2 * floatNum.big.1) (hc0 : 0 ≤ c.1) :
    ((1 : ℚ) + 1 / 2 ^ 24) ^ (2 * h) * x.1 < (1 - 1 / 2 ^ 24) ^ 2 * floatNum.big.1 := by
  refine lt_of_le_of_lt ?_ hc
  refine le_trans (mul_le_mul_of_nonneg_left (show x.1 ≤ c.1 from hx) (by positivity)) ?_
  exact mul_le_mul_of_nonneg_right (pow_height hh hn) hc0

theorem error32 : (ieee 23 (-149)).Error (1 / 2 ^ 24) := ieee_relative 23 (-149)

/-- C139 (`search_t2` of kd_tree_custom_metric.cpp): for all points of the torus, at most `2^20`, the output is eight
different points with their computed distances and coordinates, in order; none of them is farther than a point that is
not printed by more than 15 percent. -/
theorem c139_search_t2 (S : Std) {n : Nat} (hn : 8 ≤ n) (hn' : n ≤ 2 ^ 20) {random : Nat → Pt F32 2}
    (hp : ∀ i < n, ∀ j, 0 ≤ random i j ∧ random i j ≤ 1) :
    ∃ fuel, ∀ f ≥ fuel, ∀ knn, knn.length = 8 → ∃ out rest : List (Neighbor F32),
      searchT2 floatNum S random n knn f = .ok (out.map fun x => (x.index, x.distance, random x.index)) ∧
      out.length = 8 ∧ (out.Pairwise fun a b => a.distance ≤ b.distance) ∧
      (out ++ rest).Perm (all n fun i => (metricT2Sq F32 2).dist ![lit 1, lit 1] (random i)) ∧
      ∀ a ∈ out, ∀ b ∈ rest, a.distance.1 ≤ 23 / 20 * b.distance.1 := by
  obtain ⟨fuel, T, hT, hR⟩ := make_between (topologicalTag F32 2) (metricT2Sq F32 2) S (leaf := 12) (by norm_num)
    (by norm_num) two_pos (by omega : 0 < n) (b := 1) (by decide +kernel) (by decide +kernel) hp
  refine ⟨fuel, fun f hf knn hk => ?_⟩
  have hq : ∀ j, (0 : F32) ≤ (![lit 1, lit 1] : Pt F32 2) j ∧ (![lit 1, lit 1] : Pt F32 2) j ≤ 1 := by
    intro j; fin_cases j <;> decide +kernel
  have hc : CircleOk (metricT2Sq F32 2).space random n ⟨S, .sliding, .maxLeafSize 12, .fromSpace, 32⟩
      ![lit 1, lit 1] :=
    ⟨fun i hi j _ => hp i hi j, fun j _ => hq j, fun h => by cases h⟩
  have hh := height_lt (hT f hf) (by omega) (by simp)
  have hs : ∀ x y : F32, 0 ≤ x → x ≤ 1 → 0 ≤ y → y ≤ 1 → squaredS1Distance x y ≤ 1 := by
    intro x y hx0 hx1 hy0 hy1
    have e10 : (1 : F32) - 0 = 1 := by decide +kernel
    have e11 : (1 : F32) * 1 = 1 := by decide +kernel
    have hd : 0 ≤ sabs (x - y) ∧ sabs (x - y) ≤ 1 := by
      unfold sabs
      split_ifs with h
      · rw [(ieee 23 (-149)).laws.neg_sub]
        have hxy : x ≤ y := by
          by_contra hc
          exact absurd h (not_lt.2 (sub_nonneg_of (not_le.1 hc).le))
        exact ⟨sub_nonneg_of hxy, e10 ▸ sub_le_of_between hx0 hy1⟩
      · exact ⟨not_lt.1 h, e10 ▸ sub_le_of_between hy0 hx1⟩
    have hm : 0 ≤ s1Distance x y ∧ s1Distance x y ≤ 1 := by
      simp only [s1Distance, stdMin]
      split_ifs with h
      · exact ⟨sub_nonneg_of hd.2, h.le.trans hd.2⟩
      · exact hd
    exact e11 ▸ (ieee 23 (-149)).squareLaws.mul_mono _ _ hm.1 hm.2
  have hle : ∀ i < n, (metricT2Sq F32 2).dist ![lit 1, lit 1] (random i) ≤ 0 + 1 + 1 := by
    intro i hi
    show loopSum _ ≤ _
    rw [loopSum_two]
    have k := fun j => hs _ _ (hq j).1 (hq j).2 (hp i hi j).1 (hp i hi j).2
    exact (ieee 23 (-149)).laws.add_mono _ _ _ _
      ((ieee 23 (-149)).laws.add_mono _ _ _ _ le_rfl (k 0)) (k 1)
  obtain ⟨out, rest, h1, h2, h3, h4, h5⟩ := c85_knn error32 (by norm_num) (by norm_num) squareSum_t2 (hT f hf) hR
    (by omega) ![lit 1, lit 1] hc (fun i hi => big_of hh hn' (hle i hi) (by decide +kernel) (by decide +kernel)) 8
    (by norm_num) knn
  have hmem : ∀ x ∈ out ++ rest, 0 ≤ x.distance.1 := by
    intro x hx
    obtain ⟨i, hi, rfl⟩ := List.mem_map.1 (h4.mem_iff.1 hx)
    exact squareSum_t2.dist_nonneg error32 (by norm_num) (by norm_num) _ random i
  refine ⟨out, rest, ?_, by rw [h2, min_eq_left hn], h3, h4, fun a ha b hb => ?_⟩
  · unfold searchT2 neighbors
    rw [hT f hf]
    show (T.searchKnnRange _ _).bind _ = _
    rw [range_of_vector (KdTree.make_ok (hT f hf)).2.2.2.2.1 hk hn, h1]
    exact printed_of fun x hx => index_of_all (h4.mem_iff.1 (List.mem_append_left _ hx))
  · exact ratio_of_nearly hh hn' (hmem a (List.mem_append_left _ ha)) (hmem b (List.mem_append_right _ hb))
      (h5 a ha b hb)

theorem mul_mono32 {a b c e : F32} (ha : 0 ≤ a) (hab : a ≤ b) (hc : 0 ≤ c) (hce : c ≤ e) : a * c ≤ b * e :=
  (ieee 23 (-149)).mono _ _ (mul_le_mul (show a.1 ≤ b.1 from hab) (show c.1 ≤ e.1 from hce) (show 0 ≤ c.1 from hc)
    (le_trans (show 0 ≤ a.1 from ha) (show a.1 ≤ b.1 from hab)))

theorem mul_nonneg32 {a b : F32} (ha : 0 ≤ a) (hb : 0 ≤ b) : 0 ≤ a * b := by
  have h : (0 : F32) * 0 ≤ a * b := mul_mono32 le_rfl ha le_rfl hb
  rwa [(ieee 23 (-149)).squareLaws.zero_mul_zero] at h

/-- What is assumed of `std::pow(x, 3)`: it keeps the order of numbers that are not negative, is not negative on them,
and is not absurdly large for 10. -/
structure PowOk (pow : F32 → F32) : Prop where
  nonneg : ∀ x, 0 ≤ x → 0 ≤ pow x
  mono : ∀ x y, 0 ≤ x → x ≤ y → pow x ≤ pow y
  ten : pow (lit 10) ≤ lit 2000

theorem axis_pow {pow : F32 → F32} (h : PowOk pow) (d : Nat) : AxisMetric (metricPow pow d) := by
  have L := axis_l1 (d := d) (ieee 23 (-149)).laws
  have e : ∀ x, (metricPow pow d).one x = pow ((metricL1 F32 d).one x) := fun x => rfl
  exact ⟨fun x => h.nonneg _ (L.nonneg x), fun x y h1 h2 => h.mono _ _ (L.nonneg x) (L.mono x y h1 h2),
    fun a b => by rw [e, e, L.symm], fun x y => rfl⟩

/-- C139 (`search_lp3_3` of kd_tree_custom_metric.cpp): for all points of the square, at most `2^20`, the printed index
is one of a point that is farther than any other by at most 15 percent, as the distances are computed. -/
theorem c139_search_lp3 {pow : F32 → F32} (hpow : PowOk pow) (S : Std) {n : Nat} (hn : 0 < n) (hn' : n ≤ 2 ^ 20)
    {random : Nat → Pt F32 2} (hp : ∀ i < n, ∀ j, 0 ≤ random i j ∧ random i j ≤ lit 10) :
    ∃ fuel, ∀ f ≥ fuel, ∀ nn, ∃ i < n, searchLp3 pow floatNum S random n nn f = .ok i ∧
      ∀ j < n, ((metricPow pow 2).dist ![lit 5, lit 5] (random i)).1 ≤
        23 / 20 * ((metricPow pow 2).dist ![lit 5, lit 5] (random j)).1 := by
  obtain ⟨fuel, T, hT, hR⟩ := make_between (euclideanTag F32 2) (metricPow pow 2) S (leaf := 12) (by norm_num)
    (by norm_num) two_pos hn (b := lit 10) (by decide +kernel) (by decide +kernel) hp
  refine ⟨fuel, fun f hf nn => ?_⟩
  have hh := height_lt (hT f hf) hn (by simp)
  have hq : ∀ j, (0 : F32) ≤ (![lit 5, lit 5] : Pt F32 2) j ∧ (![lit 5, lit 5] : Pt F32 2) j ≤ lit 10 := by
    intro j; fin_cases j <;> decide +kernel
  have e5 : lit 10 / lit 2 = lit 5 := by decide +kernel
  have hone : (metricPow pow 2).one (lit 10 - 0) ≤ lit 2000 := by
    have e : sabs (lit 10 - 0) = lit 10 := by decide +kernel
    show pow (sabs (lit 10 - 0)) ≤ _
    rw [e]
    exact hpow.ten
  obtain ⟨i, hi, h1, h2⟩ := c46_nn_partial error32 (by norm_num) (by norm_num) (axis_pow hpow 2) (hT f hf) hR hn
    ![lit 5, lit 5] (fun i hi => big_of hh hn' (axis_le (axis_pow hpow 2) hq (hp i hi) hone) (by decide +kernel)
      (by decide +kernel)) nn
  have h0 := dist_nonneg error32 (by norm_num) (by norm_num) (axis_pow hpow 2) ![lit 5, lit 5] random
  refine ⟨i, hi, ?_, fun j hj => ratio_of_nearly hh hn' (h0 i) (h0 j) (h2 j hj)⟩
  unfold searchLp3
  rw [hT f hf, e5]
  show Outcome.ok _ = _
  rw [h1]

/-- C139 (kd_tree_custom_search_visitor.cpp): for all points of the square, at most `2^20`, the number of points visited
is at least one and at most the number of points. -/
theorem c139_visited (S : Std) {n : Nat} (hn : 0 < n) (hn' : n ≤ 2 ^ 20) {random : Nat → Pt F32 2}
    (hp : ∀ i < n, ∀ j, 0 ≤ random i j ∧ random i j ≤ lit 1000) :
    ∃ fuel, ∀ f ≥ fuel, ∀ nn, ∃ count, visited floatNum S random n nn f = .ok count ∧ 1 ≤ count ∧ count ≤ n := by
  have hM := axis_l2Sq (d := 2) (ieee 23 (-149)).laws (ieee 23 (-149)).squareLaws
  obtain ⟨fuel, T, hT, hR⟩ := make_between (euclideanTag F32 2) (metricL2Sq F32 2) S (leaf := 12) (by norm_num)
    (by norm_num) two_pos hn (b := lit 1000) (by decide +kernel) le_rfl hp
  refine ⟨fuel, fun f hf nn => ?_⟩
  have hh := height_lt (hT f hf) hn (by simp)
  have hN : T.num = floatNum := (KdTree.make_ok (hT f hf)).2.2.1
  have hq : ∀ j, (0 : F32) ≤ (![lit 1000 / lit 2, lit 1000 / lit 2] : Pt F32 2) j ∧
      (![lit 1000 / lit 2, lit 1000 / lit 2] : Pt F32 2) j ≤ lit 1000 := by
    intro j; fin_cases j <;> decide +kernel
  have hone : (metricL2Sq F32 2).one (lit 1000 - 0) ≤ lit 1000000 := by decide +kernel
  have hle : ∀ i < n, (metricL2Sq F32 2).dist ![lit 1000 / lit 2, lit 1000 / lit 2] (random i) ≤
      0 + lit 1000000 + lit 1000000 := fun i hi => axis_le hM hq (hp i hi) hone
  obtain ⟨i, hi, h1, -⟩ := c46_nn_partial error32 (by norm_num) (by norm_num) hM (hT f hf) hR hn
    ![lit 1000 / lit 2, lit 1000 / lit 2] (fun i hi => big_of hh hn' (hle i hi) (by decide +kernel)
      (by decide +kernel)) nn
  obtain ⟨calls, -, -, h4, h5, h6⟩ := c89_count (hT f hf) ![lit 1000 / lit 2, lit 1000 / lit 2] nn
  refine ⟨(T.searchNearest ![lit 1000 / lit 2, lit 1000 / lit 2] counterVisitor (counterInit floatNum nn)).1, ?_, ?_, h6⟩
  · unfold visited
    rw [hT f hf]
    show Outcome.ok _ = _
    rw [hN]
  · rw [h5]
    by_contra hz
    have hnil : calls = [] := List.length_eq_zero_iff.1 (by omega)
    have h7 := c89_result T ![lit 1000 / lit 2, lit 1000 / lit 2] nn
    rw [hN, h4, hnil, h1] at h7
    have h8 : floatNum.big = (metricL2Sq F32 2).dist ![lit 1000 / lit 2, lit 1000 / lit 2] (random i) :=
      congrArg Neighbor.distance h7
    have h9 := hle i hi
    rw [← h8] at h9
    exact absurd h9 (by decide +kernel)

/-! ### Cases -/

/-- Nine points of the circle; the closest to 1 is 0, at distance 0. -/
example : ∃ out, searchS1 floatNum Ref.std (fun i => ![lit ((i : ℚ) / 16)]) 9 (List.replicate 8 ⟨0, 0⟩) 20 = .ok out ∧
    out.map (·.1) = [0, 1, 2, 3, 4, 5, 6, 7] := by
  obtain ⟨out, h1, h2⟩ := Outcome.exists_of_check
    (x := searchS1 floatNum Ref.std (fun i => ![lit ((i : ℚ) / 16)]) 9 (List.replicate 8 ⟨0, 0⟩) 20)
    (p := fun out => decide (out.map (·.1) = [0, 1, 2, 3, 4, 5, 6, 7])) (by decide +kernel)
  exact ⟨out, h1, of_decide_eq_true h2⟩

example : ∀ i : Nat, i < 9 → ∀ j, (0 : F32) ≤ (![lit ((i : ℚ) / 16)] : Pt F32 1) j ∧
    (![lit ((i : ℚ) / 16)] : Pt F32 1) j ≤ 1 := by
  decide +kernel

/-- Cubing with two rounded products is such a power. -/
example : PowOk fun x => x * x * x where
  nonneg x h := mul_nonneg32 (mul_nonneg32 h h) h
  mono x y h0 h := mul_mono32 (mul_nonneg32 h0 h0) ((ieee 23 (-149)).squareLaws.mul_mono x y h0 h) h0 h
  ten := by decide +kernel

end Pico.Props
