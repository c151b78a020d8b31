import Verif.Proof.Low
import Verif.Props.Nearest

/-!
# C12, C13: `metric_lpinf` and `metric_lninf`

The search adds up per axis offsets whatever the metric.  For the maximum and the minimum metric that sum
is not a lower bound of the distance, and nearest neighbors are missed (`c12_false`, `c13_false`).
What the search does guarantee for these metrics: results are genuine, and nothing is lost that beats the
result by its Manhattan distance.
-/

set_option linter.unusedSectionVars false

namespace Pico.Props

open Pico

section Spec
variable {α : Type} [CommRing α] [LinearOrder α] {d : Nat}

/-- `r` is the maximum of the absolute coordinate differences. -/
def IsMaxDiff (x y : Fin d → α) (r : α) : Prop :=
  (∀ j, |x j - y j| ≤ r) ∧ ∃ j, |x j - y j| = r

/-- `r` is the minimum of the absolute coordinate differences. -/
def IsMinDiff (x y : Fin d → α) (r : α) : Prop :=
  (∀ j, r ≤ |x j - y j|) ∧ ∃ j, |x j - y j| = r

end Spec

section
variable {α : Type} [CommRing α] [LinearOrder α] [IsStrictOrderedRing α] {d : Nat} {N : Num α}
  {pts : Nat → Pt α d} {n : Nat} {o : BuildOpts α d} {fuel : Nat}

theorem foldl_max (f : Fin d → α) (l : List (Fin d)) (acc : α) :
    acc ≤ l.foldl (fun a j => stdMax a (f j)) acc ∧ (∀ j ∈ l, f j ≤ l.foldl (fun a j => stdMax a (f j)) acc) ∧
      (l.foldl (fun a j => stdMax a (f j)) acc = acc ∨
        ∃ j ∈ l, f j = l.foldl (fun a j => stdMax a (f j)) acc) := by
  induction l generalizing acc with
  | nil => simp
  | cons a l ih =>
    rw [List.foldl_cons]
    obtain ⟨h1, h2, h3⟩ := ih (stdMax acc (f a))
    have e := stdMax_eq acc (f a)
    refine ⟨?_, ?_, ?_⟩
    · refine le_trans ?_ h1; rw [e]; exact le_max_left _ _
    · intro j hj
      rcases List.mem_cons.1 hj with rfl | hj
      · refine le_trans ?_ h1; rw [e]; exact le_max_right _ _
      · exact h2 j hj
    · rcases h3 with h3 | ⟨j, hj, h3⟩
      · rcases max_choice acc (f a) with hc | hc
        · left; rw [h3, e, hc]
        · right; exact ⟨a, by simp, by rw [h3, e, hc]⟩
      · right; exact ⟨j, by simp [hj], h3⟩

theorem foldl_min (f : Fin d → α) (l : List (Fin d)) (acc : α) :
    l.foldl (fun a j => stdMin a (f j)) acc ≤ acc ∧ (∀ j ∈ l, l.foldl (fun a j => stdMin a (f j)) acc ≤ f j) ∧
      (l.foldl (fun a j => stdMin a (f j)) acc = acc ∨
        ∃ j ∈ l, f j = l.foldl (fun a j => stdMin a (f j)) acc) := by
  induction l generalizing acc with
  | nil => simp
  | cons a l ih =>
    rw [List.foldl_cons]
    obtain ⟨h1, h2, h3⟩ := ih (stdMin acc (f a))
    have e := stdMin_eq acc (f a)
    refine ⟨?_, ?_, ?_⟩
    · refine le_trans h1 ?_; rw [e]; exact min_le_left _ _
    · intro j hj
      rcases List.mem_cons.1 hj with rfl | hj
      · refine le_trans h1 ?_; rw [e]; exact min_le_right _ _
      · exact h2 j hj
    · rcases h3 with h3 | ⟨j, hj, h3⟩
      · rcases min_choice acc (f a) with hc | hc
        · left; rw [h3, e, hc]
        · right; exact ⟨a, by simp, by rw [h3, e, hc]⟩
      · right; exact ⟨j, by simp [hj], h3⟩

/-- C12: `metric_lpinf` computes the maximum of the absolute coordinate differences. -/
theorem c12_distance (hd : 0 < d) (x y : Pt α d) : IsMaxDiff x y ((metricLPInf α d).dist x y) := by
  obtain ⟨h1, h2, h3⟩ := foldl_max (fun j => r1Distance (x j) (y j)) (List.finRange d) 0
  simp only [metricLPInf, r1Distance, sabs_eq] at h1 h2 h3 ⊢
  refine ⟨fun j => h2 j (List.mem_finRange j), ?_⟩
  rcases h3 with h3 | ⟨j, _, h3⟩
  · refine ⟨⟨0, hd⟩, le_antisymm (h2 _ (List.mem_finRange _)) ?_⟩
    rw [h3]; exact abs_nonneg _
  · exact ⟨j, h3⟩

/-- C13: `metric_lninf` computes the minimum of the absolute coordinate differences (below `max()`). -/
theorem c13_distance (x y : Pt α d) (hb : ∃ j, |x j - y j| ≤ N.big) :
    IsMinDiff x y ((metricLNInf N d).dist x y) := by
  obtain ⟨h1, h2, h3⟩ := foldl_min (fun j => r1Distance (x j) (y j)) (List.finRange d) N.big
  simp only [metricLNInf, r1Distance, sabs_eq] at h1 h2 h3 ⊢
  refine ⟨fun j => h2 j (List.mem_finRange j), ?_⟩
  rcases h3 with h3 | ⟨j, _, h3⟩
  · obtain ⟨j, hj⟩ := hb
    refine ⟨j, le_antisymm ?_ (h2 _ (List.mem_finRange _))⟩
    rw [h3]; exact hj
  · exact ⟨j, h3⟩

theorem lpinf_le_l1 (x y : Pt α d) : (metricLPInf α d).dist x y ≤ Spec.l1 x y := by
  obtain ⟨h1, h2, h3⟩ := foldl_max (fun j => r1Distance (x j) (y j)) (List.finRange d) 0
  simp only [metricLPInf, r1Distance, sabs_eq] at h1 h2 h3 ⊢
  unfold Spec.l1
  rcases h3 with h3 | ⟨j, _, h3⟩
  · rw [h3]; exact Finset.sum_nonneg fun j _ => abs_nonneg _
  · rw [← h3]
    exact Finset.single_le_sum (f := fun j => |x j - y j|) (fun j _ => abs_nonneg _) (Finset.mem_univ j)

theorem l1_le_lpinf (x y : Pt α d) : Spec.l1 x y ≤ (d : α) * (metricLPInf α d).dist x y := by
  obtain ⟨h1, h2, h3⟩ := foldl_max (fun j => r1Distance (x j) (y j)) (List.finRange d) 0
  simp only [metricLPInf, r1Distance, sabs_eq] at h1 h2 h3 ⊢
  unfold Spec.l1
  refine (Finset.sum_le_card_nsmul _ _ _ fun j _ => h2 j (List.mem_finRange j)).trans ?_
  rw [nsmul_eq_mul, Finset.card_univ, Fintype.card_fin]

theorem lninf_le_l1 (hd : 0 < d) (x y : Pt α d) : (metricLNInf N d).dist x y ≤ Spec.l1 x y := by
  obtain ⟨h1, h2, h3⟩ := foldl_min (fun j => r1Distance (x j) (y j)) (List.finRange d) N.big
  simp only [metricLNInf, r1Distance, sabs_eq] at h1 h2 h3 ⊢
  unfold Spec.l1
  exact (h2 ⟨0, hd⟩ (List.mem_finRange _)).trans
    (Finset.single_le_sum (f := fun j => |x j - y j|) (fun j _ => abs_nonneg _) (Finset.mem_univ _))

/-! ## What holds in every dimension -/

section Any
variable {M : Metric α d} (hone : ∀ x, M.one x = |x|) (hle : ∀ x y, M.dist x y ≤ Spec.l1 x y)
  {T : KdTree α d (Branch1 α d)}
include hone hle

theorem infinity_nn (h : KdTree.make (euclideanTag α d) M N pts n o fuel = .ok T)
    (hR : Representable N pts n o) (hn : 0 < n) (q : Pt α d)
    (hbig : ∀ i < n, Spec.l1 q (pts i) < N.big) (nn : Neighbor α) :
    ∃ i < n, T.searchNn q nn = ⟨i, M.dist q (pts i)⟩ ∧ ∀ j < n, M.dist q (pts i) ≤ Spec.l1 q (pts j) := by
  have hL := lowAt_abs hone h hR hn q
  obtain ⟨_, rfl, rfl, rfl, rfl, _⟩ := KdTree.make_ok h
  exact hL.nn hn (fun i _ => hle _ _) hbig nn

theorem infinity_radius (h : KdTree.make (euclideanTag α d) M N pts n o fuel = .ok T)
    (hR : Representable N pts n o) (hn : 0 < n) (q : Pt α d) (sorter : StdSort (Neighbor α)) (r : α)
    (prior : List (Neighbor α)) (sort : Bool) :
    ((T.searchRadius sorter q r prior sort).map Neighbor.index).Nodup ∧
    (∀ a ∈ T.searchRadius sorter q r prior sort,
      a.index < n ∧ a.distance = M.dist q (pts a.index) ∧ a.distance < r) ∧
    (∀ i < n, M.dist q (pts i) < r → Spec.l1 q (pts i) ≤ r →
      ⟨i, M.dist q (pts i)⟩ ∈ T.searchRadius sorter q r prior sort) ∧
    (sort = true → (T.searchRadius sorter q r prior sort).Pairwise fun a b => a.distance ≤ b.distance) := by
  have hL := lowAt_abs hone h hR hn q
  obtain ⟨_, rfl, rfl, rfl, rfl, _⟩ := KdTree.make_ok h
  exact hL.radius sorter r prior sort

theorem infinity_knn (h : KdTree.make (euclideanTag α d) M N pts n o fuel = .ok T)
    (hR : Representable N pts n o) (hn : 0 < n) (q : Pt α d)
    (hbig : ∀ i < n, Spec.l1 q (pts i) < N.big) (k : Nat) (hk : 0 < k) (prior : List (Neighbor α)) :
    ∃ out, T.searchKnn q k prior = .ok out ∧ out.length = min k n ∧
      out.Pairwise (fun a b => a.distance ≤ b.distance) ∧ (out.map Neighbor.index).Nodup ∧
      (∀ a ∈ out, a.index < n ∧ a.distance = M.dist q (pts a.index)) ∧
      ∀ i (hi : i < out.length) (hi' : i < (Spec.smallest n k fun i => Spec.l1 q (pts i)).length),
        out[i].distance ≤ (Spec.smallest n k fun i => Spec.l1 q (pts i))[i] := by
  have hL := lowAt_abs hone h hR hn q
  obtain ⟨_, rfl, rfl, rfl, rfl, _⟩ := KdTree.make_ok h
  have hlen := resize_length (min k T.n) prior
  obtain ⟨L, h1, h2, h3, h4, h5, h6⟩ := hL.knnRange (fun i _ => hle _ _) hbig
    (KdTree.resize (min k T.n) prior) (by rw [hlen]; omega) (by rw [hlen]; omega)
  refine ⟨L, h1, by rw [h2, hlen], h3, h4, h5, ?_⟩
  intro i hi hi'
  have hi'' : i < (Spec.smallest T.n (KdTree.resize (min k T.n) prior).length
      (fun i => Spec.l1 q (T.pts i))).length := by
    rw [Spec.length_smallest] at hi' ⊢
    rw [hlen]
    omega
  have h7 := h6 i hi hi''
  have h8 : (Spec.smallest T.n (KdTree.resize (min k T.n) prior).length
      (fun i => Spec.l1 q (T.pts i)))[i] = (Spec.smallest T.n k (fun i => Spec.l1 q (T.pts i)))[i] := by
    simp only [Spec.smallest, List.getElem_take]
  rwa [h8] at h7

end Any

theorem lpinf_one (x : α) : (metricLPInf α d).one x = |x| := sabs_eq x
theorem lninf_one (x : α) : (metricLNInf N d).one x = |x| := sabs_eq x

/-- C12 (partial; missing: exactness, which is false for `d >= 2`, see `c12_false`): the neighbor found is
genuine and not farther than the smallest Manhattan distance, hence at most `d` times too far. -/
theorem c12_nn_partial {T : KdTree α d (Branch1 α d)}
    (h : KdTree.make (euclideanTag α d) (metricLPInf α d) N pts n o fuel = .ok T)
    (hR : Representable N pts n o) (hn : 0 < n) (q : Pt α d)
    (hbig : ∀ i < n, Spec.l1 q (pts i) < N.big) (nn : Neighbor α) :
    ∃ i < n, T.searchNn q nn = ⟨i, (metricLPInf α d).dist q (pts i)⟩ ∧
      (∀ j < n, (metricLPInf α d).dist q (pts i) ≤ Spec.l1 q (pts j)) ∧
      ∀ j < n, (metricLPInf α d).dist q (pts i) ≤ d * (metricLPInf α d).dist q (pts j) := by
  obtain ⟨i, h1, h2, h3⟩ := infinity_nn lpinf_one lpinf_le_l1 h hR hn q hbig nn
  exact ⟨i, h1, h2, h3, fun j hj => (h3 j hj).trans (l1_le_lpinf _ _)⟩

/-- C12 (partial, k nearest neighbors): distinct genuine neighbors in order; position by position not
farther than the k smallest Manhattan distances. -/
theorem c12_knn_partial {T : KdTree α d (Branch1 α d)}
    (h : KdTree.make (euclideanTag α d) (metricLPInf α d) N pts n o fuel = .ok T)
    (hR : Representable N pts n o) (hn : 0 < n) (q : Pt α d)
    (hbig : ∀ i < n, Spec.l1 q (pts i) < N.big) (k : Nat) (hk : 0 < k) (prior : List (Neighbor α)) :
    ∃ out, T.searchKnn q k prior = .ok out ∧ out.length = min k n ∧
      out.Pairwise (fun a b => a.distance ≤ b.distance) ∧ (out.map Neighbor.index).Nodup ∧
      (∀ a ∈ out, a.index < n ∧ a.distance = (metricLPInf α d).dist q (pts a.index)) ∧
      ∀ i (hi : i < out.length) (hi' : i < (Spec.smallest n k fun i => Spec.l1 q (pts i)).length),
        out[i].distance ≤ (Spec.smallest n k fun i => Spec.l1 q (pts i))[i] :=
  infinity_knn lpinf_one lpinf_le_l1 h hR hn q hbig k hk prior

/-- C12 (partial, radius): only points inside the open ball, each at most once with its distance, among
them all points of the ball whose Manhattan distance is at most `r`. -/
theorem c12_radius_partial {T : KdTree α d (Branch1 α d)}
    (h : KdTree.make (euclideanTag α d) (metricLPInf α d) N pts n o fuel = .ok T)
    (hR : Representable N pts n o) (hn : 0 < n) (q : Pt α d) (sorter : StdSort (Neighbor α)) (r : α)
    (prior : List (Neighbor α)) (sort : Bool) :
    ((T.searchRadius sorter q r prior sort).map Neighbor.index).Nodup ∧
    (∀ a ∈ T.searchRadius sorter q r prior sort,
      a.index < n ∧ a.distance = (metricLPInf α d).dist q (pts a.index) ∧ a.distance < r) ∧
    (∀ i < n, (metricLPInf α d).dist q (pts i) < r → Spec.l1 q (pts i) ≤ r →
      ⟨i, (metricLPInf α d).dist q (pts i)⟩ ∈ T.searchRadius sorter q r prior sort) ∧
    (sort = true → (T.searchRadius sorter q r prior sort).Pairwise fun a b => a.distance ≤ b.distance) :=
  infinity_radius lpinf_one lpinf_le_l1 h hR hn q sorter r prior sort

/-- C13 (partial; missing: exactness, false for `d >= 2`, see `c13_false`). -/
theorem c13_nn_partial (hd : 0 < d) {T : KdTree α d (Branch1 α d)}
    (h : KdTree.make (euclideanTag α d) (metricLNInf N d) N pts n o fuel = .ok T)
    (hR : Representable N pts n o) (hn : 0 < n) (q : Pt α d)
    (hbig : ∀ i < n, Spec.l1 q (pts i) < N.big) (nn : Neighbor α) :
    ∃ i < n, T.searchNn q nn = ⟨i, (metricLNInf N d).dist q (pts i)⟩ ∧
      ∀ j < n, (metricLNInf N d).dist q (pts i) ≤ Spec.l1 q (pts j) :=
  infinity_nn lninf_one (lninf_le_l1 hd) h hR hn q hbig nn

/-- C13 (partial, k nearest neighbors). -/
theorem c13_knn_partial (hd : 0 < d) {T : KdTree α d (Branch1 α d)}
    (h : KdTree.make (euclideanTag α d) (metricLNInf N d) N pts n o fuel = .ok T)
    (hR : Representable N pts n o) (hn : 0 < n) (q : Pt α d)
    (hbig : ∀ i < n, Spec.l1 q (pts i) < N.big) (k : Nat) (hk : 0 < k) (prior : List (Neighbor α)) :
    ∃ out, T.searchKnn q k prior = .ok out ∧ out.length = min k n ∧
      out.Pairwise (fun a b => a.distance ≤ b.distance) ∧ (out.map Neighbor.index).Nodup ∧
      (∀ a ∈ out, a.index < n ∧ a.distance = (metricLNInf N d).dist q (pts a.index)) ∧
      ∀ i (hi : i < out.length) (hi' : i < (Spec.smallest n k fun i => Spec.l1 q (pts i)).length),
        out[i].distance ≤ (Spec.smallest n k fun i => Spec.l1 q (pts i))[i] :=
  infinity_knn lninf_one (lninf_le_l1 hd) h hR hn q hbig k hk prior

/-- C13 (partial, radius). -/
theorem c13_radius_partial (hd : 0 < d) {T : KdTree α d (Branch1 α d)}
    (h : KdTree.make (euclideanTag α d) (metricLNInf N d) N pts n o fuel = .ok T)
    (hR : Representable N pts n o) (hn : 0 < n) (q : Pt α d) (sorter : StdSort (Neighbor α)) (r : α)
    (prior : List (Neighbor α)) (sort : Bool) :
    ((T.searchRadius sorter q r prior sort).map Neighbor.index).Nodup ∧
    (∀ a ∈ T.searchRadius sorter q r prior sort,
      a.index < n ∧ a.distance = (metricLNInf N d).dist q (pts a.index) ∧ a.distance < r) ∧
    (∀ i < n, (metricLNInf N d).dist q (pts i) < r → Spec.l1 q (pts i) ≤ r →
      ⟨i, (metricLNInf N d).dist q (pts i)⟩ ∈ T.searchRadius sorter q r prior sort) ∧
    (sort = true → (T.searchRadius sorter q r prior sort).Pairwise fun a b => a.distance ≤ b.distance) :=
  infinity_radius lninf_one (lninf_le_l1 hd) h hR hn q sorter r prior sort

/-! ## One dimension: exact -/

theorem lpinf_fun (q : Pt α 1) (p : Nat → Pt α 1) :
    (fun i => (metricLPInf α 1).dist q (p i)) = fun i => |q 0 - p i 0| := by
  funext i
  obtain ⟨h1, j, h2⟩ := c12_distance (α := α) Nat.one_pos q (p i)
  rw [← h2, Subsingleton.elim j 0]

theorem additive_lpinf : EuclideanAdditive (metricLPInf α 1) where
  one_nonneg x := by rw [lpinf_one]; exact abs_nonneg x
  one_mono x y h := by rwa [lpinf_one, lpinf_one]
  dist_eq x y := by
    obtain ⟨h1, j, h2⟩ := c12_distance (α := α) Nat.one_pos x y
    rw [Fin.sum_univ_one, lpinf_one, ← h2, Subsingleton.elim j 0]

/-- C12 for one-dimensional points (partial: `d = 1` only): exact. -/
theorem c12_one_dim_partial {pts : Nat → Pt α 1} {o : BuildOpts α 1} {T : KdTree α 1 (Branch1 α 1)}
    (h : KdTree.make (euclideanTag α 1) (metricLPInf α 1) N pts n o fuel = .ok T)
    (hR : Representable N pts n o) (hn : 0 < n) (q : Pt α 1)
    (hbig : ∀ i < n, |q 0 - pts i 0| < N.big) :
    (∀ nn, Spec.IsNN n (fun i => |q 0 - pts i 0|) (T.searchNn q nn)) ∧
    (∀ k, 0 < k → ∀ prior, ∃ out, T.searchKnn q k prior = .ok out ∧
      Spec.IsKnn n k (fun i => |q 0 - pts i 0|) out) ∧
    (∀ sorter r prior sort,
      Spec.IsRadius n (fun i => |q 0 - pts i 0|) r (T.searchRadius sorter q r prior sort)) := by
  have hE := exactAt_euclidean additive_lpinf h hR hn q
  refine ⟨fun nn => nn_of_exact h hE hn (lpinf_fun q pts) hbig nn, fun k hk prior => ?_,
    fun sorter r prior sort => (radius_of_exact h hE (lpinf_fun q pts) sorter r prior sort).1⟩
  obtain ⟨out, h1, h2, _⟩ := knn_of_exact h hE hn (lpinf_fun q pts) hbig k hk prior
  exact ⟨out, h1, h2⟩

end

section OneDim
variable {α : Type} [CommRing α] [LinearOrder α] [IsStrictOrderedRing α] {N : Num α} {n : Nat} {fuel : Nat}

/-- C13 for one-dimensional points (partial: `d = 1` only): exact. -/
theorem c13_one_dim_partial {pts : Nat → Pt α 1} {o : BuildOpts α 1} {T : KdTree α 1 (Branch1 α 1)}
    (h : KdTree.make (euclideanTag α 1) (metricLNInf N 1) N pts n o fuel = .ok T)
    (hR : Representable N pts n o) (hn : 0 < n) (q : Pt α 1)
    (hbig : ∀ i < n, |q 0 - pts i 0| < N.big) :
    (∀ nn, Spec.IsNN n (fun i => |q 0 - pts i 0|) (T.searchNn q nn)) ∧
    (∀ k, 0 < k → ∀ prior, ∃ out, T.searchKnn q k prior = .ok out ∧
      Spec.IsKnn n k (fun i => |q 0 - pts i 0|) out) ∧
    (∀ sorter r prior sort,
      Spec.IsRadius n (fun i => |q 0 - pts i 0|) r (T.searchRadius sorter q r prior sort)) := by
  have hdist : ∀ i < n, (metricLNInf N 1).dist q (pts i) = |q 0 - pts i 0| := by
    intro i hi
    obtain ⟨h1, j, h2⟩ := c13_distance (N := N) q (pts i) ⟨0, (hbig i hi).le⟩
    rw [← h2, Subsingleton.elim j 0]
  obtain ⟨hperm, _, ⟨box, hB⟩, hel⟩ := KdTree.make_built h hR hn
  have hg := guard_euclidean (additive_l1 (α := α) (d := 1)) q hB [] [] rfl
  simp only [List.nil_append, List.append_nil] at hg
  have hpick : (euclideanTag α 1).pick (metricLNInf N 1) q =
      (euclideanTag α 1).pick (metricL1 α 1) q := rfl
  obtain ⟨h1, h2, h3, h4, h5, _⟩ := KdTree.make_ok h
  have hE : ExactAt T q := by
    refine exactAt_of_guard (fun j i => (metricL1 α 1).one (q j - pts i j)) ?_ ?_ (by rw [h5]; exact hperm)
      hel ?_
    · intro i hi
      rw [h2, h4, hdist i (h5 ▸ hi), Fin.sum_univ_one]
      exact (sabs_eq _).symm
    · intro i _ j
      exact additive_l1.one_nonneg _
    · rw [h1, h2, hpick]
      exact hg
  have hbig' : ∀ i < n, (metricLNInf N 1).dist q (pts i) < N.big := by
    intro i hi; rw [hdist i hi]; exact hbig i hi
  have hall : Spec.all n (fun i => (metricLNInf N 1).dist q (pts i)) =
      Spec.all n (fun i => |q 0 - pts i 0|) := by
    unfold Spec.all
    refine List.map_congr_left fun i hi => ?_
    simp only [hdist i (List.mem_range.1 hi)]
  refine ⟨fun nn => ?_, fun k hk prior => ?_, fun sorter r prior sort => ?_⟩
  · have := nn_of_exact h hE hn rfl hbig' nn
    refine ⟨this.valid, this.distance.trans (hdist _ this.valid), fun j hj => ?_⟩
    rw [← hdist j hj]
    exact this.nearest j hj
  · obtain ⟨out, e1, e2, _⟩ := knn_of_exact h hE hn rfl hbig' k hk prior
    refine ⟨out, e1, e2.length, e2.sorted, ?_⟩
    rw [← hall]
    exact e2.rest
  · have := (radius_of_exact h hE rfl sorter r prior sort).1
    unfold Spec.IsRadius at this ⊢
    rwa [hall] at this

end OneDim

/-! ## Counterexamples -/

/-- Five points; the query `(4, 4)` has maximum-metric distance 3 to point 3. -/
def maxPts : Nat → Pt Rat 2
  | 0 => ![5, 8]
  | 1 => ![6, 6]
  | 2 => ![8, 8]
  | 3 => ![7, 5]
  | _ => ![8, 3]

/-- Three points in general position. -/
def minPts : Nat → Pt Rat 2
  | 0 => ![8, 1]
  | 1 => ![1, 3]
  | _ => ![2, 7]

/-- C12 is false: a finished tree over five points in the plane on which `search_nn` with `metric_lpinf`
does not return a nearest neighbor, although all coordinates are representable. -/
theorem c12_false : Representable Ref.ratNum maxPts 5 (Ref.optsMedian Rat 2) ∧
    ∃ T, KdTree.make (euclideanTag Rat 2) (metricLPInf Rat 2) Ref.ratNum maxPts 5 (Ref.optsMedian Rat 2) 10
        = .ok T ∧
      ∃ j < 5, (metricLPInf Rat 2).dist ![4, 4] (maxPts j) < (T.searchNn ![4, 4] ⟨0, 0⟩).distance := by
  refine ⟨⟨by decide +kernel, by unfold InRange; decide +kernel, trivial, fun h => by simp [Ref.optsMedian] at h⟩, ?_⟩
  obtain ⟨T, h, hp⟩ := Outcome.exists_of_check
    (x := KdTree.make (euclideanTag Rat 2) (metricLPInf Rat 2) Ref.ratNum maxPts 5 (Ref.optsMedian Rat 2) 10)
    (p := fun T => (List.range 5).any fun j =>
      decide ((metricLPInf Rat 2).dist ![4, 4] (maxPts j) < (T.searchNn ![4, 4] ⟨0, 0⟩).distance))
    (by decide +kernel)
  obtain ⟨j, hj, hl⟩ := List.any_eq_true.1 hp
  exact ⟨T, h, j, List.mem_range.1 hj, of_decide_eq_true hl⟩

/-- C13 is false: as `c12_false`, for `metric_lninf` on three points. -/
theorem c13_false : Representable Ref.ratNum minPts 3 (Ref.optsMedian Rat 2) ∧
    ∃ T, KdTree.make (euclideanTag Rat 2) (metricLNInf Ref.ratNum 2) Ref.ratNum minPts 3
        (Ref.optsMedian Rat 2) 10 = .ok T ∧
      ∃ j < 3, (metricLNInf Ref.ratNum 2).dist ![4, 4] (minPts j) < (T.searchNn ![4, 4] ⟨0, 0⟩).distance := by
  refine ⟨⟨by decide +kernel, by unfold InRange; decide +kernel, trivial, fun h => by simp [Ref.optsMedian] at h⟩, ?_⟩
  obtain ⟨T, h, hp⟩ := Outcome.exists_of_check
    (x := KdTree.make (euclideanTag Rat 2) (metricLNInf Ref.ratNum 2) Ref.ratNum minPts 3
      (Ref.optsMedian Rat 2) 10)
    (p := fun T => (List.range 3).any fun j =>
      decide ((metricLNInf Ref.ratNum 2).dist ![4, 4] (minPts j) < (T.searchNn ![4, 4] ⟨0, 0⟩).distance))
    (by decide +kernel)
  obtain ⟨j, hj, hl⟩ := List.any_eq_true.1 hp
  exact ⟨T, h, j, List.mem_range.1 hj, of_decide_eq_true hl⟩

/-- The partial theorems on a concrete tree: the answer is genuine but not nearest. -/
example : ∃ T, KdTree.make (euclideanTag Rat 2) (metricLPInf Rat 2) Ref.ratNum maxPts 5
    (Ref.optsMedian Rat 2) 10 = .ok T ∧ T.searchNn ![4, 4] ⟨0, 0⟩ = ⟨3, 3⟩ ∧
    ∀ i < 5, Spec.l1 ![4, 4] (maxPts i) < Ref.ratNum.big := by
  obtain ⟨T, h, hp⟩ := Outcome.exists_of_check
    (x := KdTree.make (euclideanTag Rat 2) (metricLPInf Rat 2) Ref.ratNum maxPts 5 (Ref.optsMedian Rat 2) 10)
    (p := fun T => decide (T.searchNn ![4, 4] ⟨0, 0⟩ = ⟨3, 3⟩)) (by decide +kernel)
  exact ⟨T, h, of_decide_eq_true hp, by decide +kernel⟩

end Pico.Props
