import Verif.Props.ExampleSearch
import Verif.Props.PyApprox
import Verif.Props.Box
import Verif.Props.ForestRounding
import Verif.Proof.Near

/-!
# C139: `search_r3` of kd_tree_search.cpp

Repeated searches with reused output, in single precision.
-/

set_option linter.unusedSectionVars false

namespace Pico.Props

open Pico.Examples Pico.Gtest Spec

/-- What every run of the body leaves behind is left behind by the loop. -/
theorem repeated_of {σ : Type} {body : σ → Outcome σ} {P : σ → Prop} (h : ∀ s, ∃ t, body s = .ok t ∧ P t) :
    ∀ runs, 0 < runs → ∀ s, ∃ t, repeated body runs s = .ok t ∧ P t
  | 0, h0, _ => absurd h0 (lt_irrefl 0)
  | 1, _, s => by
    obtain ⟨t, h1, h2⟩ := h s
    exact ⟨t, by simp only [repeated, h1, Outcome.bind], h2⟩
  | k + 2, _, s => by
    obtain ⟨t, h1, -⟩ := h s
    obtain ⟨t', h3, h4⟩ := repeated_of h (k + 1) (Nat.succ_pos k) t
    refine ⟨t', ?_, h4⟩
    show (body s).bind _ = _
    rw [h1]
    exact h3

/-- The squared differences from the query are zero or far from underflow. -/
theorem centre_one (y : F32) : (metricL2Sq F32 3).one (centre 0 - y) = 0 ∨
    (1 / 2 ^ 46 : ℚ) ≤ ((metricL2Sq F32 3).one (centre 0 - y)).1 := by
  by_cases hy : y = centre 0
  · left
    rw [hy, (ieee 23 (-149)).laws.sub_self]
    decide +kernel
  · right
    have hq : (31 : ℚ) ≤ (centre 0).1 := by decide +kernel
    have hd : (1 / 2 ^ 22 : ℚ) ≤ |(centre 0).1 - y.1| := by
      by_contra hc
      refine hy (Subtype.ext ?_)
      have hn := ieee_near (p := 23) (e := -149) (x := (centre 0).1) (z := y.1) (centre 0).2 ?_
      · exact y.2.symm.trans hn
      · rw [abs_sub_comm, abs_of_nonneg (by linarith : (0 : ℚ) ≤ (centre 0).1)]
        refine (not_le.1 hc).le.trans ?_
        norm_num
        linarith
    have he := ieee_error 23 (-149) ((centre 0).1 - y.1)
    have hs : (1 / 2 ^ 22 : ℚ) * (1 / 2) ≤ |(centre 0 - y).1| := by
      have e1 : (centre 0 - y).1 = (ieee 23 (-149)).rd ((centre 0).1 - y.1) := rfl
      rw [e1]
      have h1 := abs_sub_abs_le_abs_sub ((centre 0).1 - y.1) ((ieee 23 (-149)).rd ((centre 0).1 - y.1))
      rw [abs_sub_comm ((centre 0).1 - y.1)] at h1
      have h2 : (2 : ℚ) ^ (-149 : ℤ) / 2 ≤ 1 / 2 ^ 30 := by norm_num
      norm_num at h1 h2 hd he ⊢
      linarith
    have e2 : ((metricL2Sq F32 3).one (centre 0 - y)).1 =
        (ieee 23 (-149)).rd ((centre 0 - y).1 * (centre 0 - y).1) := rfl
    rw [e2]
    have e3 := (ieee 23 (-149)).mono (1 / 2 ^ 46) ((centre 0 - y).1 * (centre 0 - y).1) (by
      rw [← abs_mul_abs_self (centre 0 - y).1]
      refine le_trans (by norm_num) (mul_le_mul hs hs (by norm_num) (abs_nonneg _)))
    exact le_trans (by decide +kernel) e3

theorem loopSum_three {f : Fin 3 → F32} : loopSum f = 0 + f 0 + f 1 + f 2 := rfl

/-- So are the distances. -/
theorem centre_dist (x : Pt F32 3) : (metricL2Sq F32 3).dist centre x = 0 ∨
    (1 / 2 ^ 46 : ℚ) ≤ ((metricL2Sq F32 3).dist centre x).1 := by
  have hM := axis_l2Sq (d := 3) (ieee 23 (-149)).laws (ieee 23 (-149)).squareLaws
  rw [hM.dist_eq, loopSum_three]
  have h0 := fun j => centre_one (x j)
  have hz : ∀ a : F32, a + 0 = a := fun a => Subtype.ext (by
    show (ieee 23 (-149)).rd (a.1 + 0) = a.1
    rw [add_zero]; exact a.2)
  have hz' : ∀ a : F32, 0 + a = a := fun a => Subtype.ext (by
    show (ieee 23 (-149)).rd (0 + a.1) = a.1
    rw [zero_add]; exact a.2)
  have hnn : ∀ j, (0 : F32) ≤ (metricL2Sq F32 3).one (centre 0 - x j) := by
    intro j
    rcases h0 j with h | h
    · rw [h]
    · show (0 : ℚ) ≤ ((metricL2Sq F32 3).one (centre 0 - x j)).1
      exact le_trans (by positivity) h
  have hup : ∀ a b : F32, 0 ≤ b → a ≤ a + b := fun a b hb => by
    have := (ieee 23 (-149)).laws.add_mono a a 0 b le_rfl hb
    rwa [hz] at this
  have hup' : ∀ a b : F32, 0 ≤ a → b ≤ a + b := fun a b hb => by
    have := (ieee 23 (-149)).laws.add_mono 0 a b b hb le_rfl
    rwa [hz'] at this
  show 0 + (metricL2Sq F32 3).one (centre 0 - x 0) + (metricL2Sq F32 3).one (centre 0 - x 1) +
    (metricL2Sq F32 3).one (centre 0 - x 2) = 0 ∨ _ ≤ (0 + (metricL2Sq F32 3).one (centre 0 - x 0) +
    (metricL2Sq F32 3).one (centre 0 - x 1) + (metricL2Sq F32 3).one (centre 0 - x 2)).1
  rw [hz']
  rcases h0 2 with h2 | h2
  · rw [h2, hz]
    rcases h0 1 with h1 | h1
    · rw [h1, hz]
      exact h0 0
    · exact .inr (h1.trans (hup' _ _ (hnn 0)))
  · exact .inr (h2.trans (hup' _ _ ((hnn 0).trans (hup _ _ (hnn 1)))))

/-- The ratio of the example: the stored distance gives the distance away by a little more than 36/25. -/
theorem centre_stored (x : Pt F32 3) : ((metricL2Sq F32 3).dist centre x).1 ≤
    723 / 500 * ((metricL2Sq F32 3).dist centre x * (1 / (metricL2Sq F32 3).one (lit 1 + lit (1 / 5)))).1 := by
  have hv : (694 / 1000 : ℚ) ≤ (1 / (metricL2Sq F32 3).one (lit 1 + lit (1 / 5)) : F32).1 := by decide +kernel
  have hv1 : (1 / (metricL2Sq F32 3).one (lit 1 + lit (1 / 5)) : F32).1 ≤ 1 := by decide +kernel
  generalize (1 / (metricL2Sq F32 3).one (lit 1 + lit (1 / 5)) : F32) = v at hv hv1 ⊢
  rcases centre_dist x with h | h
  · rw [h]
    have : (0 : F32) * v = 0 := Subtype.ext (by
      show (ieee 23 (-149)).rd (0 * v.1) = 0
      rw [zero_mul]; exact (ieee 23 (-149)).rd_zero)
    rw [this]
    show (0 : ℚ) ≤ 723 / 500 * 0
    norm_num
  · generalize (metricL2Sq F32 3).dist centre x = a at h ⊢
    have he := ieee_error 23 (-149) (a.1 * v.1)
    show a.1 ≤ 723 / 500 * (ieee 23 (-149)).rd (a.1 * v.1)
    have h0 : (0 : ℚ) < a.1 := lt_of_lt_of_le (by positivity) h
    have h1 : 694 / 1000 * a.1 ≤ a.1 * v.1 := by nlinarith
    have h2 : a.1 * v.1 ≤ a.1 := by nlinarith
    rw [abs_of_nonneg (by nlinarith : (0 : ℚ) ≤ a.1 * v.1)] at he
    have h3 := (abs_le.1 he).1
    have h4 : (2 : ℚ) ^ (-149 : ℤ) / 2 ≤ 1 / 1000 * (1 / 2 ^ 46) := by norm_num
    have h5 : (1 / 1000 : ℚ) * (1 / 2 ^ 46) ≤ 1 / 1000 * a.1 := by linarith
    have h6 : (1 / 2 ^ (23 + 1) : ℚ) * (a.1 * v.1) ≤ 1 / 1000 * a.1 := by
      norm_num at h2 ⊢
      linarith
    linarith

/-- Rounding factors of a tree of at most `2^20` points in space. -/
theorem ratio_of_nearly_three {h n : Nat} (hh : h < n) (hn : n ≤ 2 ^ 20) {a b : ℚ} (ha : 0 ≤ a) (hb : 0 ≤ b)
    (hle : (1 - 1 / 2 ^ 24) ^ 3 * a ≤ (1 + 1 / 2 ^ 24) ^ (2 * h) * b) : a ≤ 23 / 20 * b := by
  have h1 := mul_le_mul_of_nonneg_right (pow_height hh hn) hb
  have h2 : (1000 / 1001 : ℚ) * a ≤ (1 - 1 / 2 ^ 24) ^ 3 * a := mul_le_mul_of_nonneg_right (by norm_num) ha
  linarith

/-- What the first loop of `search_r3` finds: a point farther than no other by more than 15 percent, different points
closer than 2 (all that are closer by more than that), and the points in the box. Distances are squared and computed. -/
def FoundR3 (random : Nat → Pt F32 3) (n : Nat) (s : Variables F32) : Prop :=
  (∃ i < n, s.nn = ⟨i, (metricL2Sq F32 3).dist centre (random i)⟩ ∧
    ∀ j < n, ((metricL2Sq F32 3).dist centre (random i)).1 ≤ 23 / 20 * ((metricL2Sq F32 3).dist centre (random j)).1) ∧
  ((s.knn.map Neighbor.index).Nodup ∧
    (∀ a ∈ s.knn, a.index < n ∧ a.distance = (metricL2Sq F32 3).dist centre (random a.index) ∧ a.distance.1 < 4) ∧
    ∀ i < n, 23 / 20 * ((metricL2Sq F32 3).dist centre (random i)).1 < 4 →
      ⟨i, (metricL2Sq F32 3).dist centre (random i)⟩ ∈ s.knn) ∧
  IsSelection n (fun i => ∀ j, lit (251 / 10) ≤ random i j ∧ random i j ≤ lit (379 / 10)) s.idxs

/-- What the last loop finds: `min 8 n` different points in order, none of them farther than one that is missing by more
than 15 percent. -/
def FoundKnn (random : Nat → Pt F32 3) (n : Nat) (l : List (Neighbor F32)) : Prop :=
  ∃ rest, l.length = min 8 n ∧ (l.Pairwise fun a b => a.distance ≤ b.distance) ∧
    (l ++ rest).Perm (all n fun i => (metricL2Sq F32 3).dist centre (random i)) ∧
    ∀ a ∈ l, ∀ b ∈ rest, a.distance.1 ≤ 23 / 20 * b.distance.1

/-- What the second loop finds: `min 8 n` different points, none of them farther than one that is missing by more than
two thirds. -/
def FoundApprox (random : Nat → Pt F32 3) (n : Nat) (l : List (Neighbor F32)) : Prop :=
  l.length = min 8 n ∧ (l.map Neighbor.index).Nodup ∧ (l.Pairwise fun a b => a.distance ≤ b.distance) ∧
    (∀ a ∈ l, a.index < n ∧ a.distance = (metricL2Sq F32 3).dist centre (random a.index) *
      (1 / (metricL2Sq F32 3).one (lit 1 + lit (1 / 5)))) ∧
    ∀ a ∈ l, ∀ j < n, j ∉ l.map Neighbor.index → ((metricL2Sq F32 3).dist centre (random a.index)).1 ≤
      5 / 3 * ((metricL2Sq F32 3).dist centre (random j)).1

section
variable {S : Std} {n fuel : Nat} {random : Nat → Pt F32 3} {T : KdTree F32 3 (Branch1 F32 3)}

theorem axis_le_three {M : Metric F32 3} (hM : AxisMetric M) {x y : Pt F32 3} {b c : F32}
    (hx : ∀ j, 0 ≤ x j ∧ x j ≤ b) (hy : ∀ j, 0 ≤ y j ∧ y j ≤ b) (hc : M.one (b - 0) ≤ c) :
    M.dist x y ≤ 0 + c + c + c := by
  have key : ∀ j, M.one (x j - y j) ≤ c := by
    intro j
    refine le_trans ?_ hc
    rcases le_total (y j) (x j) with h | h
    · exact hM.mono _ _ (sub_nonneg_of h) (sub_le_of_between (hy j).1 (hx j).2)
    · rw [hM.symm]
      exact hM.mono _ _ (sub_nonneg_of h) (sub_le_of_between (hx j).1 (hy j).2)
  rw [hM.dist_eq, loopSum_three]
  exact (ieee 23 (-149)).laws.add_mono _ _ _ _ ((ieee 23 (-149)).laws.add_mono _ _ _ _
    ((ieee 23 (-149)).laws.add_mono _ _ _ _ le_rfl (key 0)) (key 1)) (key 2)

/-- C139 (`search_r3` of kd_tree_search.cpp): for all points in the cube, at most `2^20`, and however often the searches
are repeated into the same variables, the program ends with the answers of one search each. -/
theorem c139_search_r3 (S : Std) (sorter : StdSort (Neighbor F32)) {n runs : Nat} (hn : 0 < n) (hn' : n ≤ 2 ^ 20)
    (hr : 0 < runs) {random : Nat → Pt F32 3} (hp : ∀ i < n, ∀ j, 0 ≤ random i j ∧ random i j ≤ lit 1000) :
    ∃ fuel, ∀ f ≥ fuel, ∀ nn, ∃ s aknn knn, searchR3 floatNum S sorter random n runs nn f = .ok (s, aknn, knn) ∧
      FoundR3 random n s ∧ FoundApprox random n aknn ∧ FoundKnn random n knn := by
  have hM := axis_l2Sq (d := 3) (ieee 23 (-149)).laws (ieee 23 (-149)).squareLaws
  obtain ⟨fuel, T, hT, hR⟩ := make_between (euclideanTag F32 3) (metricL2Sq F32 3) S (leaf := 12) (by norm_num)
    (by norm_num) three_pos hn (b := lit 1000) (by decide +kernel) le_rfl hp
  refine ⟨fuel, fun f hf nn => ?_⟩
  have h := hT f hf
  have hh := height_lt h hn (by simp)
  have hm : T.metric = metricL2Sq F32 3 := (KdTree.make_ok h).2.1
  have hq : ∀ j, (0 : F32) ≤ centre j ∧ centre j ≤ lit 1000 := fun j => by
    show (0 : F32) ≤ centre 0 ∧ centre 0 ≤ lit 1000
    decide +kernel
  have hone : (metricL2Sq F32 3).one (lit 1000 - 0) ≤ lit 1000000 := by decide +kernel
  have hle : ∀ i < n, (metricL2Sq F32 3).dist centre (random i) ≤ 0 + lit 1000000 + lit 1000000 + lit 1000000 :=
    fun i hi => axis_le_three hM hq (hp i hi) hone
  have h0 : ∀ i, 0 ≤ ((metricL2Sq F32 3).dist centre (random i)).1 := by
    intro i
    rcases centre_dist (random i) with h | h
    · rw [h]; exact le_rfl
    · exact le_trans (by positivity) h
  have hbig : ∀ i < n, ((1 : ℚ) + 1 / 2 ^ 24) ^ (2 * height T.data.root) *
      ((metricL2Sq F32 3).dist centre (random i)).1 < (1 - 1 / 2 ^ 24) ^ 3 * floatNum.big.1 := by
    intro i hi
    have hc : (8 / 7 : ℚ) * (0 + lit 1000000 + lit 1000000 + lit 1000000 : F32).1 <
        (1 - 1 / 2 ^ 24) ^ 3 * floatNum.big.1 := by decide +kernel
    refine lt_of_le_of_lt ?_ hc
    refine le_trans (mul_le_mul_of_nonneg_left (show ((metricL2Sq F32 3).dist centre (random i)).1 ≤ _ from hle i hi)
      (by positivity)) ?_
    exact mul_le_mul_of_nonneg_right (pow_height hh hn') (by decide +kernel)
  have hA : ∀ s, ∃ t, searchAll sorter T s = .ok t ∧ FoundR3 random n t := by
    intro s
    obtain ⟨o1, r1, g1, -⟩ := c46_knn_partial error32 (by norm_num) (by norm_num) hM h hR hn centre hbig 1 one_pos s.knn
    obtain ⟨i, hi, g2, g3⟩ := c46_nn_partial error32 (by norm_num) (by norm_num) hM h hR hn centre hbig s.nn
    obtain ⟨g4, g5⟩ := c46_radius_partial error32 (by norm_num) (by norm_num) hM h hR hn centre sorter
      ((metricL2Sq F32 3).one (lit 2)) o1 false
    have e4 : ((metricL2Sq F32 3).one (lit 2)).1 = 4 := by decide +kernel
    refine ⟨_, by unfold searchAll; rw [g1]; rfl, ⟨i, hi, g2, fun j hj => ?_⟩, ⟨?_, ?_, ?_⟩, ?_⟩
    · exact ratio_of_nearly_three hh hn' (h0 i) (h0 j) (g3 j hj)
    · rw [hm]
      obtain ⟨vis, hnd, -, he⟩ := traversal_any h centre (radiusVisitor ((metricL2Sq F32 3).one (lit 2))) (radiusInit o1)
      show ((T.searchNearest centre (radiusVisitor ((metricL2Sq F32 3).one (lit 2))) (radiusInit o1)).map _).Nodup
      rw [he, radius_visitAll]
      have h3 : ((vis.map fun i => (⟨i, (metricL2Sq F32 3).dist centre (random i)⟩ : Neighbor F32)).map
          Neighbor.index).Nodup := by simpa [Function.comp_def] using hnd
      exact (List.filter_sublist.map _).nodup h3
    · rw [hm]
      intro a ha
      obtain ⟨k1, k2, k3⟩ := g4 a ha
      exact ⟨k1, k2, e4 ▸ k3⟩
    · rw [hm]
      intro i hi hlt
      have h1 := mul_le_mul_of_nonneg_right (pow_height hh hn') (h0 i)
      refine g5 i hi ?_ ?_
      · show ((metricL2Sq F32 3).dist centre (random i)).1 < ((metricL2Sq F32 3).one (lit 2)).1
        rw [e4]
        linarith [h0 i]
      · rw [e4]
        have : (4 : ℚ) * (999 / 1000) ≤ (1 - 1 / 2 ^ 24) ^ 3 * 4 := by norm_num
        linarith
    · exact c08_box h trivial _ _ _
  have he1 : (1 : ℚ) ≤ ((metricL2Sq F32 3).one (lit 1 + lit (1 / 5))).1 := by decide +kernel
  have hB : ∀ l, ∃ t, T.searchKnnApprox centre 8 (T.metric.one (lit 1 + lit (1 / 5))) l = .ok t ∧
      FoundApprox random n t := by
    intro l
    rw [hm]
    obtain ⟨out, rest, g1, g2, g3, g4, g5⟩ := (c92_euclidean (q := centre) error32 (by norm_num) (by norm_num) hM h hR hn
      (by decide +kernel) he1).knn hbig 8 l (by norm_num)
    have hidx : (out.map fun i => (⟨i, (metricL2Sq F32 3).dist centre (random i) *
        (1 / (metricL2Sq F32 3).one (lit 1 + lit (1 / 5)))⟩ : Neighbor F32)).map Neighbor.index = out := by
      rw [List.map_map]
      exact List.map_id' _
    have hnd : (out ++ rest).Nodup := g4.nodup_iff.2 List.nodup_range
    refine ⟨_, g1, by rw [List.length_map]; exact g2, ?_, List.pairwise_map.2 g3, ?_, ?_⟩
    · rw [hidx]
      exact (List.nodup_append.1 hnd).1
    · intro a ha
      obtain ⟨i, hi, rfl⟩ := List.mem_map.1 ha
      exact ⟨List.mem_range.1 (g4.subset (List.mem_append_left _ hi)), rfl⟩
    · rw [hidx]
      intro a ha j hj hnj
      obtain ⟨i, hi, rfl⟩ := List.mem_map.1 ha
      have hrest : j ∈ rest := by
        rcases List.mem_append.1 (g4.symm.subset (List.mem_range.2 hj)) with h | h
        · exact absurd h hnj
        · exact h
      have k1 := centre_stored (random i)
      have k2 : (0 : ℚ) ≤ ((metricL2Sq F32 3).dist centre (random i) *
          (1 / (metricL2Sq F32 3).one (lit 1 + lit (1 / 5)))).1 := by linarith [h0 i]
      have k3 := ratio_of_nearly_three hh hn' k2 (h0 j) (g5 i hi j hrest)
      show ((metricL2Sq F32 3).dist centre (random i)).1 ≤ _
      linarith [h0 j]
  have hC : ∀ l, ∃ t, T.searchKnn centre 8 l = .ok t ∧ FoundKnn random n t := by
    intro l
    obtain ⟨out, rest, g1, g2, g3, g4, g5⟩ := c46_knn_partial error32 (by norm_num) (by norm_num) hM h hR hn centre hbig
      8 (by norm_num) l
    refine ⟨out, g1, rest, g2, g3, g4, fun a ha b hb => ?_⟩
    have hd : ∀ x ∈ out ++ rest, 0 ≤ x.distance.1 := by
      intro x hx
      obtain ⟨i, -, rfl⟩ := List.mem_map.1 (g4.subset hx)
      exact h0 i
    exact ratio_of_nearly_three hh hn' (hd a (List.mem_append_left _ ha)) (hd b (List.mem_append_right _ hb))
      (g5 a ha b hb)
  obtain ⟨s, k1, k2⟩ := repeated_of hA runs hr ⟨nn, [], []⟩
  obtain ⟨aknn, k3, k4⟩ := repeated_of hB runs hr s.knn
  obtain ⟨knn, k5, k6⟩ := repeated_of hC runs hr aknn
  refine ⟨s, aknn, knn, ?_, k2, k4, k6⟩
  unfold searchR3
  rw [h]
  show (repeated (searchAll sorter T) runs ⟨nn, [], []⟩).bind _ = _
  rw [k1]
  show (repeated (T.searchKnnApprox centre 8 (T.metric.one (lit 1 + lit (1 / 5)))) runs s.knn).bind _ = _
  rw [k3]
  show (repeated (T.searchKnn centre 8) runs aknn).bind _ = _
  rw [k5]
  rfl

end

/-- Thirty points on a diagonal, three runs: twelve are in the box, two are closer than 2. -/
example : ∃ r, searchR3 floatNum Ref.std (Ref.sorter _) (fun i _ => lit (16 + (i : ℚ))) 30 3 ⟨7, 0⟩ 40 = .ok r ∧
    r.1.nn.distance < 1 ∧ r.1.knn.length = 2 ∧ r.1.idxs.length = 12 ∧ r.2.1.length = 8 ∧
    r.2.2.length = 8 := by
  obtain ⟨r, h1, h2⟩ := Outcome.exists_of_check
    (x := searchR3 floatNum Ref.std (Ref.sorter _) (fun i _ => lit (16 + (i : ℚ))) 30 3 ⟨7, 0⟩ 40)
    (p := fun r => decide (r.1.nn.distance < 1 ∧ r.1.knn.length = 2 ∧ r.1.idxs.length = 12 ∧
      r.2.1.length = 8 ∧ r.2.2.length = 8)) (by decide +kernel)
  exact ⟨r, h1, of_decide_eq_true h2⟩

example : ∀ i : Nat, i < 30 → ∀ j : Fin 3, (0 : F32) ≤ (fun _ => lit (16 + (i : ℚ)) : Pt F32 3) j ∧
    (fun _ => lit (16 + (i : ℚ)) : Pt F32 3) j ≤ lit 1000 := by
  decide +kernel

end Pico.Props
