import Verif.Proof.CoverSearch
import Verif.Proof.CoverTerm
import Verif.Props.MetricLaws
import Verif.Ref
import Mathlib.Analysis.SpecialFunctions.Log.Base
import Mathlib.Algebra.Order.BigOperators.Ring.Finset
import Mathlib.Data.Int.Log

/-!
# C48, C49, C50: the cover tree of the examples
-/

namespace Pico.Props

open Pico Spec

/-! ### C49 -/

section
variable {α L : Type} [LinearOrder α] [Add α]

/-- C49: whatever the arithmetic of distances and levels, the implementation of `std::partition` and the
insertion order, a build that finishes places every point in exactly one node. In particular `remove_leaf` is
never called for a leaf and the node buffers never have to grow (both are undefined behaviour in the model).
No law is assumed of `dist`. -/
theorem c49 (B : Leveling α L) (P : StdPart (CNode L Unit)) (dist : Nat → Nat → α) (fuel : Nat)
    (indices : List Nat) (h : indices ≠ []) :
    Cover.build B P dist fuel indices = .oof ∨
    ∃ t, Cover.build B P dist fuel indices = .ok t ∧ (points t).Perm indices := by
  rcases Cover.build_points B P dist fuel indices h with ⟨-, h⟩ | h
  · exact Or.inl h
  · exact Or.inr h

/-- C49 (recorded distances): every node records the largest distance from its point to a point below. -/
theorem c49_max_distance (B : Leveling α L) (P : StdPart (CNode L Unit)) (dist : Nat → Nat → α) (fuel : Nat)
    (indices : List Nat) {t : CNode L α} (h : Cover.build B P dist fuel indices = .ok t) :
    Everywhere (fun c => (∀ p ∈ points c, dist c.index p ≤ c.maxDistance) ∧
      ∃ p ∈ points c, c.maxDistance = dist c.index p) t :=
  Cover.build_largest B P dist fuel indices h

end

/-! ### C50 -/

section
variable {K : Type} [Field K] [LinearOrder K] [IsStrictOrderedRing K]

omit [IsStrictOrderedRing K] in
/-- The levels of positive distances are finite. -/
theorem exact_grows (b : K) (cl fl : K → ℤ) : (Leveling.exact b cl fl).Grows (· ≠ ⊥) where
  up l hl := by
    cases l with
    | bot => exact absurd rfl hl
    | coe n => exact WithBot.coe_ne_bot (a := n + 1)
  reach l m hl := by
    cases l with
    | bot => exact absurd rfl hl
    | coe n =>
      have key : ∀ k : Nat, (Leveling.exact b cl fl).up^[k] (n : WithBot ℤ) = ((n + k : ℤ) : WithBot ℤ) := by
        intro k
        induction k with
        | zero => simp
        | succ k ih =>
          rw [Function.iterate_succ_apply', ih]
          change ((n + k + 1 : ℤ) : WithBot ℤ) = _
          push_cast
          rw [add_assoc]
      cases m with
      | bot => exact ⟨0, by rw [key]; simp [Leveling.exact]⟩
      | coe m =>
        refine ⟨(m - n).toNat, ?_⟩
        rw [key]
        simp only [Leveling.exact, decide_eq_false_iff_not, not_lt, WithBot.coe_le_coe]
        omega
  ceil d hd := by
    simp only [Leveling.exact, if_neg (not_le.2 hd)]
    exact WithBot.coe_ne_bot

omit [IsStrictOrderedRing K] in
/-- The level of distance zero is minus infinity. -/
theorem exact_bottom (b : K) (cl fl : K → ℤ) : (Leveling.exact b cl fl).Bottom ⊥ where
  ceil := by simp [Leveling.exact]
  up := rfl
  cover := rfl
  lt d hd := by
    simp only [Leveling.exact, if_neg (not_le.2 hd), decide_eq_true_eq]
    exact WithBot.bot_lt_coe _

variable (b : K) (cl fl : K → ℤ) (P : StdPart (CNode (WithBot ℤ) Unit)) (dist : Nat → Nat → K)

/-- C50, exactly when it holds: the construction finishes unless the first two inserted points coincide and
some later point differs from them. The base and the logarithms are arbitrary. -/
theorem c50_iff (i j : Nat) (rest : List Nat) (hij : 0 ≤ dist i j) (hnn : ∀ k ∈ rest, 0 ≤ dist k i) :
    (∃ fuel t, Cover.build (Leveling.exact b cl fl) P dist fuel (i :: j :: rest) = .ok t) ↔
      (dist i j = 0 → ∀ k ∈ rest, dist k i = 0) := by
  rw [← Cover.insertAll_iff (Leveling.exact b cl fl) P dist (exact_grows b cl fl) (exact_bottom b cl fl) i j
    rest hij hnn]
  exact exists_congr fun fuel => Cover.build_ok_iff _ P dist fuel _ (by simp)

/-- C50 (partial): the construction finishes for points that are pairwise distinct, in every order. Missing:
point sets with duplicates. -/
theorem c50_partial (indices : List Nat) (h : indices.Nodup) (hne : indices ≠ [])
    (hd : ∀ i ∈ indices, ∀ j ∈ indices, i ≠ j → 0 < dist i j) (hself : ∀ i ∈ indices, dist i i = 0) :
    ∃ fuel t, ∀ f, fuel ≤ f → Cover.build (Leveling.exact b cl fl) P dist f indices = .ok t := by
  have key : ∃ fuel t, Cover.build (Leveling.exact b cl fl) P dist fuel indices = .ok t := by
    match indices, hne with
    | [i], _ =>
      refine ⟨0, (Cover.build_ok_iff _ P dist 0 [i] (by simp)).2 ⟨_, rfl⟩⟩
    | i :: j :: rest, _ =>
      have hij : i ≠ j := by
        intro e
        simp [e] at h
      have h0 := hd i (by simp) j (by simp) hij
      have hk : ∀ k ∈ rest, 0 ≤ dist k i := by
        intro k hk
        have hki : k ≠ i := by
          rintro rfl
          simp [hk] at h
        exact (hd k (by simp [hk]) i (by simp) hki).le
      exact (c50_iff b cl fl P dist i j rest h0.le hk).2 fun e => absurd e h0.ne'
  obtain ⟨fuel, t, ht⟩ := key
  exact ⟨fuel, t, fun f hf =>
    (Outcome.mono_le (fun n => Cover.build_mono (Leveling.exact b cl fl) P dist indices n) hf).ok ht⟩

/-- C50 is false: for every point set with two coinciding points and a third point elsewhere there is an
insertion order, possible as the order is random, for which the construction never ends. -/
theorem c50_false (n i j k : Nat) (hi : i < n) (hj : j < n) (hk : k < n) (hij : i ≠ j)
    (hnn : ∀ a < n, 0 ≤ dist a i) (h0 : dist i j = 0) (h0' : dist j i = 0) (h1 : dist i i = 0)
    (hki : 0 < dist k i) :
    ∃ indices, indices.Perm (List.range n) ∧
      ∀ fuel, Cover.build (Leveling.exact b cl fl) P dist fuel indices = .oof := by
  refine ⟨i :: j :: ((List.range n).erase i).erase j, ?_, fun fuel => ?_⟩
  · have hj' : j ∈ (List.range n).erase i := by
      rw [List.mem_erase_of_ne hij.symm]
      exact List.mem_range.2 hj
    exact ((List.perm_cons_erase hj').symm.cons i).trans (List.perm_cons_erase (List.mem_range.2 hi)).symm
  · have hmem : k ∈ ((List.range n).erase i).erase j := by
      rw [List.mem_erase_of_ne, List.mem_erase_of_ne, List.mem_range]
      · exact hk
      · rintro rfl; rw [h1] at hki; exact lt_irrefl _ hki
      · rintro rfl; rw [h0'] at hki; exact lt_irrefl _ hki
    have := Cover.insertAll_never (Leveling.exact b cl fl) P dist (exact_bottom b cl fl) i j
      (((List.range n).erase i).erase j) h0
      (fun a ha => hnn a (List.mem_range.1 (List.mem_of_mem_erase (List.mem_of_mem_erase ha))))
      (fun h => by rw [h k hmem] at hki; exact lt_irrefl _ hki) fuel
    rw [Cover.build, this]
    rfl

end

/-! ### C48 -/

/-- `T` is a tree of the `n` points `pts` with right distances to descendants (`CoverTree.Sound`). -/
def CoverTree.Made {α L : Type} [LinearOrder α] {d : Nat} (M : Metric α d) (N : Num α) (pts : Nat → Pt α d) (n : Nat)
    (T : CoverTree α d L) : Prop :=
  T.metric = M ∧ T.num = N ∧ T.pts = pts ∧ T.n = n ∧ T.Sound

section
variable {K : Type} [Field K] [LinearOrder K] [IsStrictOrderedRing K] {d : Nat} {L : Type}
variable {M : Metric K d} {N : Num K} {pts : Nat → Pt K d} {n : Nat} (hn : 0 < n)
variable {T : CoverTree K d L} (hT : CoverTree.Made M N pts n T)
variable (sorter : StdSort (CNode L K × K)) (fuel' : Nat) (hf : n ≤ fuel') (q : Pt K d)
variable (htri : ∀ m < n, ∀ p < n, M.dist q (pts m) ≤ M.dist q (pts p) + M.dist (pts m) (pts p))
include hn hT hf htri

/-- Nearest neighbor. -/
theorem CoverTree.Made.nn (hbig : ∀ i < n, M.dist q (pts i) < N.big) (nn : Neighbor K) :
    ∃ r, T.searchNn sorter fuel' q nn = .ok r ∧ IsNN n (fun i => M.dist q (pts i)) r := by
  obtain ⟨rfl, rfl, rfl, rfl, hS⟩ := hT
  obtain ⟨t, h1, h2⟩ := hS.final sorter fuel' hf q htri nnVisitor (fun _ => True) (nnInit T.num nn)
    (fun s i _ hs => shrinks_nn (fun i => T.metric.dist q (T.pts i)) s i trivial hs) trivial
  exact ⟨t, h1, h2.nn hn hbig⟩

/-- K nearest neighbors. -/
theorem CoverTree.Made.knn (hbig : ∀ i < n, M.dist q (pts i) < N.big) (k : Nat) (hk : 0 < k) (knn : List (Neighbor K)) :
    ∃ out, T.searchKnn sorter fuel' q k knn = .ok out ∧ IsKnn n k (fun i => M.dist q (pts i)) out := by
  obtain ⟨rfl, rfl, rfl, rfl, hS⟩ := hT
  have hlen : (knn.take (min k T.n) ++
      List.replicate (min k T.n - knn.length) (⟨0, 0⟩ : Neighbor K)).length = min k T.n := by
    simp only [List.length_append, List.length_take, List.length_replicate]
    omega
  set buf := knn.take (min k T.n) ++ List.replicate (min k T.n - knn.length) (⟨0, 0⟩ : Neighbor K) with hbuf
  have hb : 0 < buf.length := by rw [hlen]; omega
  obtain ⟨s, Inv, hs, hI, hV⟩ := knnInit_shrinks (dist := fun i => T.metric.dist q (T.pts i)) hbig hb
  obtain ⟨t, h1, h2⟩ := hS.final sorter fuel' hf q htri (knnVisitor T.num) Inv s hV hI
  obtain ⟨out, h3, h4⟩ := Final.knn hs h2 hbig hb
  have hol := h4.length
  rw [hlen] at hol
  refine ⟨out, ?_, ?_, h4.sorted, h4.rest⟩
  · unfold CoverTree.searchKnn CoverTree.searchKnnRange
    rw [← hbuf, hs]
    simp only [Outcome.bind, h1]
    rw [h3, List.drop_eq_nil_of_le, List.append_nil]
    rw [List.length_modify, hlen, hol]
    omega
  · rw [hol]; omega

/-- Radius. -/
theorem CoverTree.Made.radius (sorter' : StdSort (Neighbor K)) (r : K) (l : List (Neighbor K)) (sort : Bool) :
    ∃ out, T.searchRadius sorter fuel' sorter' q r l sort = .ok out ∧
      IsRadius n (fun i => M.dist q (pts i)) r out ∧
      (sort = true → out.Pairwise fun a b => a.distance ≤ b.distance) := by
  obtain ⟨rfl, rfl, rfl, rfl, hS⟩ := hT
  obtain ⟨t, h1, h2⟩ := hS.final sorter fuel' hf q htri (radiusVisitor r) (fun _ => True) (radiusInit l)
    (fun s i _ hs => shrinks_radius (fun i => T.metric.dist q (T.pts i)) r s i trivial hs) trivial
  refine ⟨_, ?_, isRadius_sort sorter' h2.radius sort⟩
  unfold CoverTree.searchRadius
  rw [h1]
  rfl

variable (hnn : ∀ i < n, 0 ≤ M.dist q (pts i))
include hnn

/-- Approximate nearest neighbor. -/
theorem CoverTree.Made.nn_approx (e : K) (he : 1 ≤ e) (hbig : ∀ i < n, M.dist q (pts i) < N.big) (nn : Neighbor K) :
    ∃ r, T.searchNnApprox sorter fuel' q e nn = .ok r ∧ r.index < n ∧
      r.distance * e = M.dist q (pts r.index) ∧ ∀ j < n, M.dist q (pts r.index) ≤ e * M.dist q (pts j) := by
  obtain ⟨rfl, rfl, rfl, rfl, hS⟩ := hT
  obtain ⟨t, h1, h2⟩ := hS.final sorter fuel' hf q htri (approxNnVisitor e) (fun _ => True)
    (nnInit T.num nn)
    (fun s i _ hs => shrinks_nn (scaled e fun i => T.metric.dist q (T.pts i)) s i trivial hs) trivial
  obtain ⟨i, h3, h4, h5, h6, -⟩ := h2.nnApprox hn (lt_of_lt_of_le one_pos he) hnn hbig
    (fun i hi => lt_of_le_of_lt
      (scaled_le (dist := fun i => T.metric.dist q (T.pts i)) he (hnn i hi)) (hbig i hi))
  subst h4
  exact ⟨t, h1, h3, h5, h6 he⟩

/-- Approximate radius search. -/
theorem CoverTree.Made.radius_approx (sorter' : StdSort (Neighbor K)) (r e : K) (he : 1 ≤ e) (l : List (Neighbor K))
    (sort : Bool) :
    ∃ out, T.searchRadiusApprox sorter fuel' sorter' q r e l sort = .ok out ∧
      IsApproxRadius n (fun i => M.dist q (pts i)) r e out := by
  obtain ⟨rfl, rfl, rfl, rfl, hS⟩ := hT
  obtain ⟨t, h1, h2⟩ := hS.final sorter fuel' hf q htri (approxRadiusVisitor e r) (fun _ => True)
    (radiusInit l)
    (fun s i _ hs => shrinks_radius (scaled e fun i => T.metric.dist q (T.pts i)) (r * (1 / e)) s i
      trivial hs) trivial
  have hp : (if sort then sorter'.sort Neighbor.lt t else t).Perm t := by
    cases sort with
    | false => exact List.Perm.refl _
    | true => exact sorter'.sort_perm _ _ strictWeak_neighborLt
  obtain ⟨h3, h4, h5⟩ := h2.radiusApprox he hnn hp
  refine ⟨_, ?_, h3, h4, fun i hi hr => h5 i hi ?_⟩
  · unfold CoverTree.searchRadiusApprox
    rw [h1]
    rfl
  · exact (lt_div_iff₀ (lt_of_lt_of_le one_pos he)).1 hr

/-- Approximate k nearest neighbors. -/
theorem CoverTree.Made.knn_approx (e : K) (he : 1 ≤ e) (hbig : ∀ i < n, M.dist q (pts i) < N.big) (k : Nat) (hk : 0 < k)
    (knn : List (Neighbor K)) :
    ∃ out, T.searchKnnApprox sorter fuel' q k e knn = .ok out ∧
      IsApproxKnn n k (fun i => M.dist q (pts i)) e out := by
  obtain ⟨rfl, rfl, rfl, rfl, hS⟩ := hT
  have he0 : 0 < e := lt_of_lt_of_le one_pos he
  have hlen : (knn.take (min k T.n) ++
      List.replicate (min k T.n - knn.length) (⟨0, 0⟩ : Neighbor K)).length = min k T.n := by
    simp only [List.length_append, List.length_take, List.length_replicate]
    omega
  set buf := knn.take (min k T.n) ++ List.replicate (min k T.n - knn.length) (⟨0, 0⟩ : Neighbor K) with hbuf
  have hb : 0 < buf.length := by rw [hlen]; omega
  have hbn : buf.length ≤ T.n := by rw [hlen]; omega
  obtain ⟨s, Inv, hs, hI, hV⟩ := approxKnnInit_shrinks (dist := fun i => T.metric.dist q (T.pts i)) he hnn
    hbig hb
  obtain ⟨t, h1, h2⟩ := hS.final sorter fuel' hf q htri (approxKnnVisitor T.num e) Inv s hV hI
  obtain ⟨out, h3, h4, h5, h6, h7, h8⟩ := Final.knnApprox hs h2 he hnn hbig hb hbn
  have hsm : ∀ k', min k' T.n = min k T.n → smallest T.n k' (fun i => T.metric.dist q (T.pts i)) =
      smallest T.n k (fun i => T.metric.dist q (T.pts i)) := by
    intro k' hk'
    unfold smallest
    have hl : (((List.range T.n).map fun i => T.metric.dist q (T.pts i)).mergeSort
        (fun a b => decide (a ≤ b))).length = T.n := by simp
    rw [List.take_eq_take_iff, hl]
    exact hk'
  have hsb := hsm buf.length (by rw [hlen]; omega)
  refine ⟨out, ?_, ?_, h5, h6, h7, ?_⟩
  · unfold CoverTree.searchKnnApprox CoverTree.searchKnnApproxRange
    rw [← hbuf, hs]
    simp only [Outcome.bind, h1]
    rw [h3]
  · rw [h4, hlen]
  · intro i hi hi'
    have h9 := h8 i hi (by rw [hsb]; exact hi')
    simp only [hsb] at h9
    rw [← (h7 out[i] (List.getElem_mem hi)).2, mul_comm e]
    exact mul_le_mul_of_nonneg_right h9 he0.le

end

section
variable {K : Type} [Field K] [LinearOrder K] [IsStrictOrderedRing K] {d : Nat} {L : Type}
variable (B : Leveling K L) (P : StdPart (CNode L Unit)) (M : Metric K d) (N : Num K) (pts : Nat → Pt K d)
variable (n : Nat) (hn : 0 < n) (indices : List Nat) (hi : indices.Perm (List.range n)) (fuel : Nat)
variable {T : CoverTree K d L} (hT : CoverTree.make B P M N pts n indices fuel = .ok T)
variable (sorter : StdSort (CNode L K × K)) (fuel' : Nat) (hf : n ≤ fuel') (q : Pt K d)
variable (htri : ∀ m < n, ∀ p < n, M.dist q (pts m) ≤ M.dist q (pts p) + M.dist (pts m) (pts p))
include hn hi hT hf htri

/-- C48 (nearest neighbor): on a tree that the builder has produced, for whatever leveling and insertion
order, `search_nn` finishes and returns a nearest neighbor. The triangle inequality is needed between the
query and the points only (`htri`; it follows from symmetry and the triangle inequality of the metric). -/
theorem c48_nn (hbig : ∀ i < n, M.dist q (pts i) < N.big) (nn : Neighbor K) :
    ∃ r, T.searchNn sorter fuel' q nn = .ok r ∧ IsNN n (fun i => M.dist q (pts i)) r :=
  CoverTree.Made.nn hn (CoverTree.make_sound B P M N pts n hn indices hi fuel hT) sorter fuel' hf q htri hbig nn

/-- C48 (k nearest neighbors). -/
theorem c48_knn (hbig : ∀ i < n, M.dist q (pts i) < N.big) (k : Nat) (hk : 0 < k) (knn : List (Neighbor K)) :
    ∃ out, T.searchKnn sorter fuel' q k knn = .ok out ∧ IsKnn n k (fun i => M.dist q (pts i)) out :=
  CoverTree.Made.knn hn (CoverTree.make_sound B P M N pts n hn indices hi fuel hT) sorter fuel' hf q htri hbig k hk knn

/-- C48 (radius). -/
theorem c48_radius (sorter' : StdSort (Neighbor K)) (r : K) (l : List (Neighbor K)) (sort : Bool) :
    ∃ out, T.searchRadius sorter fuel' sorter' q r l sort = .ok out ∧
      IsRadius n (fun i => M.dist q (pts i)) r out ∧
      (sort = true → out.Pairwise fun a b => a.distance ≤ b.distance) :=
  CoverTree.Made.radius hn (CoverTree.make_sound B P M N pts n hn indices hi fuel hT) sorter fuel' hf q htri sorter' r l sort

variable (hnn : ∀ i < n, 0 ≤ M.dist q (pts i))
include hnn

/-- C48 (approximate nearest neighbor): within the factor `e` of the nearest, and the reported distance is
the true one divided by `e`. -/
theorem c48_nn_approx (e : K) (he : 1 ≤ e) (hbig : ∀ i < n, M.dist q (pts i) < N.big) (nn : Neighbor K) :
    ∃ r, T.searchNnApprox sorter fuel' q e nn = .ok r ∧ r.index < n ∧
      r.distance * e = M.dist q (pts r.index) ∧ ∀ j < n, M.dist q (pts r.index) ≤ e * M.dist q (pts j) :=
  CoverTree.Made.nn_approx hn (CoverTree.make_sound B P M N pts n hn indices hi fuel hT) sorter fuel' hf q htri hnn e he hbig nn

/-- C48 (approximate radius search). -/
theorem c48_radius_approx (sorter' : StdSort (Neighbor K)) (r e : K) (he : 1 ≤ e) (l : List (Neighbor K))
    (sort : Bool) :
    ∃ out, T.searchRadiusApprox sorter fuel' sorter' q r e l sort = .ok out ∧
      IsApproxRadius n (fun i => M.dist q (pts i)) r e out :=
  CoverTree.Made.radius_approx hn (CoverTree.make_sound B P M N pts n hn indices hi fuel hT) sorter fuel' hf q htri hnn sorter' r e he l sort

/-- C48 (approximate k nearest neighbors). -/
theorem c48_knn_approx (e : K) (he : 1 ≤ e) (hbig : ∀ i < n, M.dist q (pts i) < N.big) (k : Nat) (hk : 0 < k)
    (knn : List (Neighbor K)) :
    ∃ out, T.searchKnnApprox sorter fuel' q k e knn = .ok out ∧
      IsApproxKnn n k (fun i => M.dist q (pts i)) e out :=
  CoverTree.Made.knn_approx hn (CoverTree.make_sound B P M N pts n hn indices hi fuel hT) sorter fuel' hf q htri hnn e he hbig k hk knn

end

/-! ### The metrics -/

/-- The form of the triangle inequality that C48 uses, from a metric. -/
theorem FullMetric.search {K τ : Type} [Field K] [LinearOrder K] [IsStrictOrderedRing K] {D : τ → τ → K}
    {same : τ → τ → Prop} (h : FullMetric D same) (q m p : τ) : D q m ≤ D q p + D m p := by
  rw [h.comm m p]
  exact h.triangle q p m

section
variable {K : Type} [Field K] [LinearOrder K] [IsStrictOrderedRing K] {d : Nat}

/-- C48 applies to `metric_l1`. -/
theorem c48_l1 (q m p : Pt K d) :
    (metricL1 K d).dist q m ≤ (metricL1 K d).dist q p + (metricL1 K d).dist m p := c41_l1.search q m p

/-- C48 applies to `metric_lpinf`. -/
theorem c48_lpinf (hd : 0 < d) (q m p : Pt K d) :
    (metricLPInf K d).dist q m ≤ (metricLPInf K d).dist q p + (metricLPInf K d).dist m p :=
  (c41_lpinf hd).search q m p

end

/-- `metric_l2` with the real square root is a metric. -/
theorem c41_l2 {d : Nat} : FullMetric (metricL2 Real.sqrt d).dist (· = ·) := by
  have e : ∀ x y : Pt ℝ d, (metricL2 Real.sqrt d).dist x y = Real.sqrt ((metricL2Sq ℝ d).dist x y) :=
    fun _ _ => rfl
  have sq := c41_l2_squared (α := ℝ) (d := d)
  have es : ∀ x y : Pt ℝ d, (metricL2Sq ℝ d).dist x y = ∑ j, (x j - y j) ^ 2 := by
    intro x y
    simp only [metricL2Sq, loopSum_eq, squaredR1Distance, squared, pow_two]
  refine ⟨⟨fun x y => ?_, fun x y => ?_, fun x y => ?_⟩, fun x y z => ?_⟩
  · rw [e]; exact Real.sqrt_nonneg _
  · rw [e, e, sq.comm]
  · rw [e, Real.sqrt_eq_zero (sq.nonneg x y)]; exact sq.zero x y
  · rw [e, e, e]
    have h1 := Real.sq_sqrt (sq.nonneg x y)
    have h2 := Real.sq_sqrt (sq.nonneg y z)
    have n1 := Real.sqrt_nonneg ((metricL2Sq ℝ d).dist x y)
    have n2 := Real.sqrt_nonneg ((metricL2Sq ℝ d).dist y z)
    refine Real.sqrt_le_iff.2 ⟨add_nonneg n1 n2, ?_⟩
    have cs := Finset.sum_mul_sq_le_sq_mul_sq Finset.univ (fun j => x j - y j) (fun j => y j - z j)
    rw [← es, ← es, ← h1, ← h2, ← mul_pow] at cs
    have cs' := abs_le_of_sq_le_sq' cs (mul_nonneg n1 n2)
    have ex : (metricL2Sq ℝ d).dist x z =
        (metricL2Sq ℝ d).dist x y + 2 * ∑ j, (x j - y j) * (y j - z j) + (metricL2Sq ℝ d).dist y z := by
      rw [es, es, es, Finset.mul_sum, ← Finset.sum_add_distrib, ← Finset.sum_add_distrib]
      exact Finset.sum_congr rfl fun j _ => by ring
    rw [ex, add_sq, h1, h2]
    have := cs'.2
    linarith

/-- C48 applies to `metric_l2`, the default metric of the cover tree. -/
theorem c48_l2 {d : Nat} (q m p : Pt ℝ d) :
    (metricL2 Real.sqrt d).dist q m ≤ (metricL2 Real.sqrt d).dist q p + (metricL2 Real.sqrt d).dist m p :=
  c41_l2.search q m p

/-! ### Examples -/

/-- A `std::partition` that keeps the order. -/
def stablePart (τ : Type) : StdPart τ where
  front p l := l.filter p
  back p l := l.filter (fun x => !p x)
  perm p l := List.filter_append_perm p l
  front_true p l x hx := (List.mem_filter.1 hx).2
  back_false p l x hx := by simpa using (List.mem_filter.1 hx).2

/-- Base two over the rationals. -/
def base2 : Leveling ℚ (WithBot ℤ) := Leveling.exact 2 (Int.clog 2) (Int.log 2)

/-- Points on a line. -/
def onLine (l : List ℚ) : Nat → Pt ℚ 1 := fun i _ => l.getD i 0

/-- The cover tree of points on a line, inserted one after the other. -/
def lineTree (M : Metric ℚ 1) (l : List ℚ) : Outcome (CoverTree ℚ 1 (WithBot ℤ)) :=
  CoverTree.make base2 (stablePart _) M Ref.ratNum (onLine l) l.length (List.range l.length) 60

/-- The hypotheses of C48 can be met: the tree of eight points with a rebalanced node is built, and the
search finds point 3 for the query 10. -/
example : ∃ T, lineTree (metricL1 ℚ 1) [0, 5, 8, 11, 2, 7, 16, 3] = .ok T ∧
    ∃ r, T.searchNn (Ref.sorter _) 8 (fun _ => 10) ⟨0, 0⟩ = .ok r ∧ r = ⟨3, 1⟩ := by
  have h : (lineTree (metricL1 ℚ 1) [0, 5, 8, 11, 2, 7, 16, 3]).check (fun T =>
      (T.searchNn (Ref.sorter _) 8 (fun _ => 10) ⟨0, 0⟩).check fun r => decide (r = ⟨3, 1⟩)) = true := by
    decide +kernel
  obtain ⟨T, h1, h2⟩ := Outcome.exists_of_check h
  obtain ⟨r, h3, h4⟩ := Outcome.exists_of_check h2
  exact ⟨T, h1, r, h3, by simpa using h4⟩

/-- The hypotheses of C50 can be met, and those of its negation as well: the points 0, 0 and 1. -/
example (fuel : Nat) : ∃ indices, indices.Perm (List.range 3) ∧
    Cover.build base2 (stablePart _) (fun i j => (metricL1 ℚ 1).dist (onLine [0, 0, 1] i) (onLine [0, 0, 1] j))
      fuel indices = .oof := by
  obtain ⟨l, h1, h2⟩ := c50_false 2 (Int.clog 2) (Int.log 2) (stablePart _)
    (fun i j => (metricL1 ℚ 1).dist (onLine [0, 0, 1] i) (onLine [0, 0, 1] j)) 3 0 1 2 (by decide) (by decide)
    (by decide) (by decide) (fun a _ => c41_l1.nonneg _ _) (by decide +kernel) (by decide +kernel)
    (by decide +kernel) (by decide +kernel)
  exact ⟨l, h1, h2 fuel⟩

/-- The same points in another order: the construction finishes. -/
example : ∃ t, Cover.build base2 (stablePart _)
    (fun i j => (metricL1 ℚ 1).dist (onLine [0, 0, 1] i) (onLine [0, 0, 1] j)) 20 [0, 2, 1] = .ok t := by
  have h : (Cover.build base2 (stablePart _)
    (fun i j => (metricL1 ℚ 1).dist (onLine [0, 0, 1] i) (onLine [0, 0, 1] j)) 20 [0, 2, 1]).check
      (fun _ => true) = true := by decide +kernel
  obtain ⟨t, h, -⟩ := Outcome.exists_of_check h
  exact ⟨t, h⟩

/-- C48 needs the triangle inequality: `metric_l2_squared` is accepted by the class template (no trait is
checked), and the search then returns a wrong answer without notice. Points 0, 4 and 8, query 5: the nearest
point is 4 at squared distance 1. -/
theorem c48_squared_false :
    ∃ T r, lineTree (metricL2Sq ℚ 1) [0, 4, 8] = .ok T ∧
      T.searchNn (Ref.sorter _) 3 (fun _ => 5) ⟨0, 0⟩ = .ok r ∧
      ¬ IsNN 3 (fun i => (metricL2Sq ℚ 1).dist (fun _ => 5) (onLine [0, 4, 8] i)) r := by
  have h : (lineTree (metricL2Sq ℚ 1) [0, 4, 8]).check (fun T =>
      (T.searchNn (Ref.sorter _) 3 (fun _ => 5) ⟨0, 0⟩).check fun r =>
        decide (1 < r.distance)) = true := by
    decide +kernel
  obtain ⟨T, h1, h2⟩ := Outcome.exists_of_check h
  obtain ⟨r, h3, h4⟩ := Outcome.exists_of_check h2
  refine ⟨T, r, h1, h3, fun h => ?_⟩
  have h5 := h.nearest 1 (by decide)
  have h6 : (metricL2Sq ℚ 1).dist (fun _ => 5) (onLine [0, 4, 8] 1) = 1 := by decide +kernel
  have h7 := of_decide_eq_true h4
  simp only [h6] at h5
  linarith

end Pico.Props
