import Verif.Props.Nearest

/-!
# C64: approximate searches and visitors on the circle and on SE(2)

`search_nn`, `search_knn` and `search_radius` with the approximation factor `e`
(`kd_tree.hpp` 154-159, 204-236, 277-291) and `search_nearest` with a custom visitor, for trees with
`metric_so2` and `metric_se2_squared`.  Hypotheses as in `Verif.Props.Nearest`.
-/

set_option linter.unusedSectionVars false

namespace Pico.Props

open Pico Pico.Ref

section Transfer
variable {α : Type} [Field α] [LinearOrder α] [IsStrictOrderedRing α] {d : Nat} {β : Type}
  {tag : SpaceTag α d β} {M : Metric α d} {N : Num α} {pts : Nat → Pt α d} {n : Nat}
  {o : BuildOpts α d} {fuel : Nat} {T : KdTree α d β} {q : Pt α d} {dist : Nat → α}

theorem nnApprox_of_exact (h : KdTree.make tag M N pts n o fuel = .ok T) (hE : ExactAt T q)
    (hn : 0 < n) (hd : (fun i => M.dist q (pts i)) = dist) (hnn : ∀ i < n, 0 ≤ dist i) (e : α)
    (he : 0 < e) (hbig : ∀ i < n, dist i < N.big ∧ dist i / e < N.big) (nn : Neighbor α) :
    ∃ i < n, (T.searchNnApprox q e nn).index = i ∧ (T.searchNnApprox q e nn).distance * e = dist i ∧
      (1 ≤ e → ∀ j < n, dist i ≤ e * dist j) ∧ (e ≤ 1 → ∀ j < n, dist i ≤ dist j) := by
  obtain ⟨_, rfl, rfl, rfl, rfl, _⟩ := KdTree.make_ok h
  subst hd
  refine hE.nnApprox hn e he hnn (fun i hi => (hbig i hi).1) ?_ nn
  intro i hi
  rw [mul_one_div]
  exact (hbig i hi).2

theorem knnApprox_of_exact (h : KdTree.make tag M N pts n o fuel = .ok T) (hE : ExactAt T q)
    (hn : 0 < n) (hd : (fun i => M.dist q (pts i)) = dist) (hnn : ∀ i < n, 0 ≤ dist i) (e : α)
    (he : 1 ≤ e) (hbig : ∀ i < n, dist i < N.big) (k : Nat) (hk : 0 < k)
    (prior : List (Neighbor α)) :
    ∃ out, T.searchKnnApprox q k e prior = .ok out ∧ Spec.IsApproxKnn n k dist e out := by
  obtain ⟨_, rfl, rfl, rfl, rfl, _⟩ := KdTree.make_ok h
  subst hd
  have hlen := resize_length (min k T.n) prior
  obtain ⟨L, h1, h2, h3, h4, h5, h6⟩ := hE.knnApproxRange e he hnn hbig
    (KdTree.resize (min k T.n) prior) (by rw [hlen]; omega) (by rw [hlen]; omega)
  refine ⟨L, h1, by rw [h2, hlen], h3, h4, h5, ?_⟩
  intro i hi hi'
  have hi'' : i < (Spec.smallest T.n (KdTree.resize (min k T.n) prior).length
      (fun i => T.metric.dist q (T.pts i))).length := by
    rw [Spec.length_smallest] at hi' ⊢
    rw [hlen]
    omega
  have h7 := h6 i hi hi''
  have h8 : (Spec.smallest T.n (KdTree.resize (min k T.n) prior).length
      (fun i => T.metric.dist q (T.pts i)))[i] =
      (Spec.smallest T.n k (fun i => T.metric.dist q (T.pts i)))[i] := by
    simp only [Spec.smallest, List.getElem_take]
  rw [h8] at h7
  have h9 := (h5 L[i] (List.getElem_mem hi)).2
  have he0 : 0 < e := lt_of_lt_of_le one_pos he
  rw [← h9, mul_comm e]
  exact mul_le_mul_of_nonneg_right h7 he0.le

theorem radiusApprox_of_exact (h : KdTree.make tag M N pts n o fuel = .ok T) (hE : ExactAt T q)
    (hd : (fun i => M.dist q (pts i)) = dist) (hnn : ∀ i < n, 0 ≤ dist i)
    (sorter : StdSort (Neighbor α)) (r e : α) (he : 1 ≤ e) (prior : List (Neighbor α)) (sort : Bool) :
    Spec.IsApproxRadius n dist r e (T.searchRadiusApprox sorter q r e prior sort) ∧
      (sort = true → (T.searchRadiusApprox sorter q r e prior sort).Pairwise
        fun a b => a.distance ≤ b.distance) := by
  obtain ⟨_, rfl, rfl, rfl, rfl, _⟩ := KdTree.make_ok h
  subst hd
  obtain ⟨h1, h2, h3, h4⟩ := hE.radiusApprox sorter r e he hnn prior sort
  have he0 : 0 < e := lt_of_lt_of_le one_pos he
  exact ⟨⟨h1, h2, fun i hi hr => h3 i hi ((lt_div_iff₀ he0).1 hr)⟩, h4⟩

theorem visitor_of_exact (h : KdTree.make tag M N pts n o fuel = .ok T) (hE : ExactAt T q)
    (hd : (fun i => M.dist q (pts i)) = dist) {σ : Type} (V : Visitor α σ) (Inv : σ → Prop) (s : σ)
    (hs : Inv s)
    (hV : ∀ s, ∀ i < n, Inv s → Inv (V.visit s i (dist i)) ∧ V.max (V.visit s i (dist i)) ≤ V.max s) :
    ∃ calls : List Nat, calls.Nodup ∧ (∀ i ∈ calls, i < n) ∧
      T.searchNearest q V s = calls.foldl (fun s i => V.visit s i (dist i)) s ∧
      ∀ i < n, i ∉ calls → V.max (T.searchNearest q V s) < dist i := by
  obtain ⟨_, rfl, rfl, rfl, rfl, _⟩ := KdTree.make_ok h
  subst hd
  obtain ⟨vis, skip, hp, he, hk⟩ := hE σ V Inv s (fun s i hi hs => hV s i hi hs) hs
  have hmem := perm_range_mem hp
  have hnd := List.nodup_append.1 (hp.nodup_iff.2 List.nodup_range)
  refine ⟨vis, hnd.1, fun i hi => (hmem i).2 (Or.inl hi), he, ?_⟩
  intro i hi hiv
  rcases (hmem i).1 hi with h1 | h1
  · exact absurd h1 hiv
  · exact hk i h1

end Transfer

section Topological
variable {α : Type} [Field α] [LinearOrder α] [IsStrictOrderedRing α] {N : Num α} {n : Nat}
  {fuel : Nat}

theorem circle_nonneg {a b : α} (ha : 0 ≤ a ∧ a ≤ 1) (hb : 0 ≤ b ∧ b ≤ 1) : 0 ≤ Spec.circle a b := by
  refine le_min (abs_nonneg _) (sub_nonneg.2 (abs_le.2 ⟨?_, ?_⟩)) <;> linarith [ha.1, ha.2, hb.1, hb.2]

theorem se2Sq_nonneg (x y : Pt α 3) : 0 ≤ Spec.se2Sq x y :=
  add_nonneg (add_nonneg (sq_nonneg _) (sq_nonneg _)) (sq_nonneg _)

/-! ## The circle -/
section SO2
variable {pts : Nat → Pt α 1} {o : BuildOpts α 1} {T : KdTree α 1 (Branch2 α 1)} {q : Pt α 1}

/-- C64, approximate nearest neighbor on the circle. -/
theorem c64_nn_approx_so2 (h : KdTree.make (topologicalTag α 1) (metricSO2 α) N pts n o fuel = .ok T)
    (hR : Representable N pts n o) (hn : 0 < n) (hc : CircleOk (fun _ => .s1) pts n o q) (e : α)
    (he : 0 < e) (hbig : ∀ i < n, Spec.circle (q 0) (pts i 0) < N.big ∧
      Spec.circle (q 0) (pts i 0) / e < N.big) (nn : Neighbor α) :
    ∃ i < n, (T.searchNnApprox q e nn).index = i ∧
      (T.searchNnApprox q e nn).distance * e = Spec.circle (q 0) (pts i 0) ∧
      (1 ≤ e → ∀ j < n, Spec.circle (q 0) (pts i 0) ≤ e * Spec.circle (q 0) (pts j 0)) ∧
      (e ≤ 1 → ∀ j < n, Spec.circle (q 0) (pts i 0) ≤ Spec.circle (q 0) (pts j 0)) :=
  nnApprox_of_exact h (exactAt_topological topological_so2 h hR hn q hc) hn (so2_fun q pts)
    (fun i hi => circle_nonneg (hc.query 0 rfl) (hc.points i hi 0 rfl)) e he hbig nn

/-- C64, approximate k nearest neighbors on the circle. -/
theorem c64_knn_approx_so2 (h : KdTree.make (topologicalTag α 1) (metricSO2 α) N pts n o fuel = .ok T)
    (hR : Representable N pts n o) (hn : 0 < n) (hc : CircleOk (fun _ => .s1) pts n o q) (e : α)
    (he : 1 ≤ e) (hbig : ∀ i < n, Spec.circle (q 0) (pts i 0) < N.big) (k : Nat) (hk : 0 < k)
    (prior : List (Neighbor α)) :
    ∃ out, T.searchKnnApprox q k e prior = .ok out ∧
      Spec.IsApproxKnn n k (fun i => Spec.circle (q 0) (pts i 0)) e out :=
  knnApprox_of_exact h (exactAt_topological topological_so2 h hR hn q hc) hn (so2_fun q pts)
    (fun i hi => circle_nonneg (hc.query 0 rfl) (hc.points i hi 0 rfl)) e he hbig k hk prior

/-- C64, approximate radius search on the circle. -/
theorem c64_radius_approx_so2
    (h : KdTree.make (topologicalTag α 1) (metricSO2 α) N pts n o fuel = .ok T)
    (hR : Representable N pts n o) (hn : 0 < n) (hc : CircleOk (fun _ => .s1) pts n o q)
    (sorter : StdSort (Neighbor α)) (r e : α) (he : 1 ≤ e) (prior : List (Neighbor α)) (sort : Bool) :
    Spec.IsApproxRadius n (fun i => Spec.circle (q 0) (pts i 0)) r e
        (T.searchRadiusApprox sorter q r e prior sort) ∧
      (sort = true → (T.searchRadiusApprox sorter q r e prior sort).Pairwise
        fun a b => a.distance ≤ b.distance) :=
  radiusApprox_of_exact h (exactAt_topological topological_so2 h hR hn q hc) (so2_fun q pts)
    (fun i hi => circle_nonneg (hc.query 0 rfl) (hc.points i hi 0 rfl)) sorter r e he prior sort

/-- C64, custom visitors on the circle. -/
theorem c64_visitor_so2 (h : KdTree.make (topologicalTag α 1) (metricSO2 α) N pts n o fuel = .ok T)
    (hR : Representable N pts n o) (hn : 0 < n) (hc : CircleOk (fun _ => .s1) pts n o q)
    {σ : Type} (V : Visitor α σ) (Inv : σ → Prop) (s : σ) (hs : Inv s)
    (hV : ∀ s, ∀ i < n, Inv s → Inv (V.visit s i (Spec.circle (q 0) (pts i 0))) ∧
      V.max (V.visit s i (Spec.circle (q 0) (pts i 0))) ≤ V.max s) :
    ∃ calls : List Nat, calls.Nodup ∧ (∀ i ∈ calls, i < n) ∧
      T.searchNearest q V s =
        calls.foldl (fun s i => V.visit s i (Spec.circle (q 0) (pts i 0))) s ∧
      ∀ i < n, i ∉ calls → V.max (T.searchNearest q V s) < Spec.circle (q 0) (pts i 0) :=
  visitor_of_exact h (exactAt_topological topological_so2 h hR hn q hc) (so2_fun q pts) V Inv s hs hV

end SO2

/-! ## SE(2) -/
section SE2
variable {pts : Nat → Pt α 3} {o : BuildOpts α 3} {T : KdTree α 3 (Branch2 α 3)} {q : Pt α 3}

/-- C64, approximate nearest neighbor on SE(2). -/
theorem c64_nn_approx_se2
    (h : KdTree.make (topologicalTag α 3) (metricSE2Sq α) N pts n o fuel = .ok T)
    (hR : Representable N pts n o) (hn : 0 < n) (hc : CircleOk se2Axes pts n o q) (e : α) (he : 0 < e)
    (hbig : ∀ i < n, Spec.se2Sq q (pts i) < N.big ∧ Spec.se2Sq q (pts i) / e < N.big)
    (nn : Neighbor α) :
    ∃ i < n, (T.searchNnApprox q e nn).index = i ∧
      (T.searchNnApprox q e nn).distance * e = Spec.se2Sq q (pts i) ∧
      (1 ≤ e → ∀ j < n, Spec.se2Sq q (pts i) ≤ e * Spec.se2Sq q (pts j)) ∧
      (e ≤ 1 → ∀ j < n, Spec.se2Sq q (pts i) ≤ Spec.se2Sq q (pts j)) :=
  nnApprox_of_exact h (exactAt_topological topological_se2 h hR hn q (se2_space (α := α) ▸ hc)) hn
    (se2_fun q pts) (fun _ _ => se2Sq_nonneg _ _) e he hbig nn

/-- C64, approximate k nearest neighbors on SE(2). -/
theorem c64_knn_approx_se2
    (h : KdTree.make (topologicalTag α 3) (metricSE2Sq α) N pts n o fuel = .ok T)
    (hR : Representable N pts n o) (hn : 0 < n) (hc : CircleOk se2Axes pts n o q) (e : α) (he : 1 ≤ e)
    (hbig : ∀ i < n, Spec.se2Sq q (pts i) < N.big) (k : Nat) (hk : 0 < k)
    (prior : List (Neighbor α)) :
    ∃ out, T.searchKnnApprox q k e prior = .ok out ∧
      Spec.IsApproxKnn n k (fun i => Spec.se2Sq q (pts i)) e out :=
  knnApprox_of_exact h (exactAt_topological topological_se2 h hR hn q (se2_space (α := α) ▸ hc)) hn
    (se2_fun q pts) (fun _ _ => se2Sq_nonneg _ _) e he hbig k hk prior

/-- C64, approximate radius search on SE(2). -/
theorem c64_radius_approx_se2
    (h : KdTree.make (topologicalTag α 3) (metricSE2Sq α) N pts n o fuel = .ok T)
    (hR : Representable N pts n o) (hn : 0 < n) (hc : CircleOk se2Axes pts n o q)
    (sorter : StdSort (Neighbor α)) (r e : α) (he : 1 ≤ e) (prior : List (Neighbor α)) (sort : Bool) :
    Spec.IsApproxRadius n (fun i => Spec.se2Sq q (pts i)) r e
        (T.searchRadiusApprox sorter q r e prior sort) ∧
      (sort = true → (T.searchRadiusApprox sorter q r e prior sort).Pairwise
        fun a b => a.distance ≤ b.distance) :=
  radiusApprox_of_exact h (exactAt_topological topological_se2 h hR hn q (se2_space (α := α) ▸ hc))
    (se2_fun q pts) (fun _ _ => se2Sq_nonneg _ _) sorter r e he prior sort

/-- C64, custom visitors on SE(2). -/
theorem c64_visitor_se2
    (h : KdTree.make (topologicalTag α 3) (metricSE2Sq α) N pts n o fuel = .ok T)
    (hR : Representable N pts n o) (hn : 0 < n) (hc : CircleOk se2Axes pts n o q)
    {σ : Type} (V : Visitor α σ) (Inv : σ → Prop) (s : σ) (hs : Inv s)
    (hV : ∀ s, ∀ i < n, Inv s → Inv (V.visit s i (Spec.se2Sq q (pts i))) ∧
      V.max (V.visit s i (Spec.se2Sq q (pts i))) ≤ V.max s) :
    ∃ calls : List Nat, calls.Nodup ∧ (∀ i ∈ calls, i < n) ∧
      T.searchNearest q V s = calls.foldl (fun s i => V.visit s i (Spec.se2Sq q (pts i))) s ∧
      ∀ i < n, i ∉ calls → V.max (T.searchNearest q V s) < Spec.se2Sq q (pts i) :=
  visitor_of_exact h (exactAt_topological topological_se2 h hR hn q (se2_space (α := α) ▸ hc))
    (se2_fun q pts) V Inv s hs hV

end SE2

end Topological

/-! ## Concrete cases -/
section Examples

example : ∃ T, KdTree.make (topologicalTag Rat 3) (metricSE2Sq Rat) ratNum poses4 4
      (optsMidpoint Rat 3) 10 = .ok T ∧
      T.searchNnApprox ![0, 1 / 4, 1] 2 ⟨77, 0⟩ = ⟨0, 29 / 800⟩ := by
  obtain ⟨T, h1, h2⟩ := Outcome.exists_of_check (x := KdTree.make (topologicalTag Rat 3)
    (metricSE2Sq Rat) ratNum poses4 4 (optsMidpoint Rat 3) 10)
    (p := fun T => T.searchNnApprox ![0, 1 / 4, 1] 2 ⟨77, 0⟩ = ⟨0, 29 / 800⟩) (by decide +kernel)
  exact ⟨T, h1, by simpa using h2⟩

example : ∃ T, KdTree.make (topologicalTag Rat 1) (metricSO2 Rat) ratNum circle4 4
      (optsMedian Rat 1) 10 = .ok T ∧
      T.searchKnnApprox ![1] 2 2 [] = .ok [⟨1, 1 / 20⟩, ⟨0, 1 / 20⟩] := by
  obtain ⟨T, h1, h2⟩ := Outcome.exists_of_check (x := KdTree.make (topologicalTag Rat 1)
    (metricSO2 Rat) ratNum circle4 4 (optsMedian Rat 1) 10)
    (p := fun T => T.searchKnnApprox ![1] 2 2 [] = .ok [⟨1, 1 / 20⟩, ⟨0, 1 / 20⟩]) (by decide +kernel)
  exact ⟨T, h1, by simpa using h2⟩

end Examples

end Pico.Props
