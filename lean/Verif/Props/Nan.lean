import Verif.Proof.Nan
import Verif.Proof.Rounding
import Verif.Ref

/-!
# C81, C82: NaN

The scalars are floating point numbers with infinities and NaN.  The trees are arbitrary (not only those the
constructor makes): with NaN among the coordinates the comparator given to `std::nth_element` is no strict
weak ordering, and the standard says nothing about the result.
-/

set_option linter.unusedSectionVars false

namespace Pico.Props

open Pico

section Genuine
variable {α : Type} [LT α] [LE α] [DecidableLT α] [DecidableLE α] [Zero α] [Add α] [Sub α] {d : Nat} {β : Type}

/-- C81, nearest neighbor, without any assumption on `<` and `<=`: the result is untouched, or it is a point of
the tree with the distance computed for it, and this distance is less than something (so it is not NaN). -/
theorem c81_nn (T : KdTree α d β) (q : Pt α d) (nn : Neighbor α) :
    T.searchNn q nn = ⟨nn.index, T.num.big⟩ ∨
    ∃ i ∈ T.data.indices, T.searchNn q nn = ⟨i, T.metric.dist q (T.pts i)⟩ ∧
      ∃ b, T.metric.dist q (T.pts i) < b := by
  refine T.searchNearest_keeps q nnVisitor (fun s => s = ⟨nn.index, T.num.big⟩ ∨ ∃ i ∈ T.data.indices,
    s = ⟨i, T.metric.dist q (T.pts i)⟩ ∧ ∃ b, T.metric.dist q (T.pts i) < b) (fun s i hi hs => ?_) _
    (Or.inl rfl)
  dsimp only [nnVisitor]
  split
  · rename_i h
    exact Or.inr ⟨i, hi, rfl, _, h⟩
  · exact hs

/-- C81, k nearest neighbors: the result is as long as the given range, and every entry is an old one (the last
one with the distance `max()`) or a point of the tree with the distance computed for it. -/
theorem c81_knn (T : KdTree α d β) (q : Pt α d) (buf out : List (Neighbor α))
    (h : T.searchKnnRange q buf = .ok out) : out.length = buf.length ∧ ∀ a ∈ out,
      (∃ b ∈ buf, a = b ∨ a = ⟨b.index, T.num.big⟩) ∨
      ∃ i ∈ T.data.indices, a = ⟨i, T.metric.dist q (T.pts i)⟩ ∧ ∃ b, T.metric.dist q (T.pts i) < b := by
  unfold KdTree.searchKnnRange knnInit at h
  cases hl : buf.getLast? with
  | none => simp [hl, Outcome.bind] at h
  | some x =>
    simp only [hl, Outcome.bind, Outcome.ok.injEq] at h
    rw [← h]
    refine T.searchNearest_keeps q (knnVisitor T.num) (fun s => s.buf.length = buf.length ∧ ∀ a ∈ s.buf,
      (∃ b ∈ buf, a = b ∨ a = ⟨b.index, T.num.big⟩) ∨
      ∃ i ∈ T.data.indices, a = ⟨i, T.metric.dist q (T.pts i)⟩ ∧ ∃ b, T.metric.dist q (T.pts i) < b)
      (fun s i hi hs => ?_) _ ⟨by simp, fun a ha => ?_⟩
    · dsimp only [knnVisitor, knnVisit]
      split
      · rename_i hlt
        refine ⟨by rw [insertSorted, insertLoop_length_any, hs.1], ?_⟩
        exact insertLoop_keeps _ _ (Or.inr ⟨i, hi, rfl, _, hlt⟩) _ _ hs.2
      · exact hs
    · left
      rcases List.mem_or_eq_of_mem_set ha with h' | rfl
      · exact ⟨a, h', Or.inl rfl⟩
      · exact ⟨x, List.mem_of_getLast? hl, Or.inr rfl⟩

/-- C81, radius search (not sorted): every entry is a point of the tree with the distance computed for it, which
is less than the radius. -/
theorem c81_radius (sorter : StdSort (Neighbor α)) (T : KdTree α d β) (q : Pt α d) (r : α)
    (prior : List (Neighbor α)) : ∀ a ∈ T.searchRadius sorter q r prior false,
      ∃ i ∈ T.data.indices, a = ⟨i, T.metric.dist q (T.pts i)⟩ ∧ T.metric.dist q (T.pts i) < r := by
  unfold KdTree.searchRadius
  refine T.searchNearest_keeps q (radiusVisitor r) (fun s => ∀ a ∈ s, ∃ i ∈ T.data.indices,
    a = ⟨i, T.metric.dist q (T.pts i)⟩ ∧ T.metric.dist q (T.pts i) < r) (fun s i hi hs => ?_) _
    (by simp [radiusInit])
  dsimp only [radiusVisitor]
  split
  · rename_i h
    intro a ha
    rcases List.mem_append.1 ha with ha | ha
    · exact hs a ha
    · rw [List.mem_singleton] at ha
      exact ⟨i, hi, ha, h⟩
  · exact hs

end Genuine

section
variable {K : Type} [Field K] [LinearOrder K] [IsStrictOrderedRing K] {Φ : FloatFormat K} {d : Nat} {β : Type}

/-- A coordinate of the point is NaN. -/
def HasNan (x : Pt (Fl Φ) d) : Prop := ∃ j, x j = .nan

/-- The distance between points with NaN coordinates is NaN. -/
def NanMetric (M : Metric (Fl Φ) d) : Prop := ∀ x y, HasNan x ∨ HasNan y → M.dist x y = .nan

theorem sub_hasNan {x y : Pt (Fl Φ) d} (h : HasNan x ∨ HasNan y) : ∃ j, x j - y j = .nan := by
  rcases h with ⟨j, h⟩ | ⟨j, h⟩
  · exact ⟨j, by rw [h, Fl.nan_sub]⟩
  · exact ⟨j, by rw [h, Fl.sub_nan]⟩

theorem s1Distance_nan {a b : Fl Φ} (h : a - b = .nan) : s1Distance a b = .nan := by
  unfold s1Distance stdMin
  simp only [h, Fl.sabs_nan, Fl.sub_nan, if_neg (Fl.not_nan_lt _)]

/-- C81: the metrics that add something over all coordinates propagate NaN. -/
theorem c81_metrics : NanMetric (metricL1 (Fl Φ) d) ∧ NanMetric (metricL2Sq (Fl Φ) d) ∧
    NanMetric (metricT2Sq (Fl Φ) d) ∧ NanMetric (metricSO2 (Fl Φ)) ∧ NanMetric (metricSE2Sq (Fl Φ)) := by
  refine ⟨fun x y h => ?_, fun x y h => ?_, fun x y h => ?_, fun x y h => ?_, fun x y h => ?_⟩
  all_goals obtain ⟨j, hj⟩ := sub_hasNan h
  · refine Fl.loopSum_nan _ (j := j) ?_
    simp only [r1Distance, hj, Fl.sabs_nan]
  · refine Fl.loopSum_nan _ (j := j) ?_
    simp only [squaredR1Distance, squared, hj, Fl.nan_mul]
  · refine Fl.loopSum_nan _ (j := j) ?_
    simp only [squaredS1Distance, squared, s1Distance_nan hj, Fl.nan_mul]
  · have : j = 0 := Subsingleton.elim _ _
    subst this
    exact s1Distance_nan hj
  · have h3 : j = 0 ∨ j = 1 ∨ j = 2 := by
      rcases j with ⟨j, hj⟩
      simp only [Fin.ext_iff]
      change j = 0 ∨ j = 1 ∨ j = 2
      omega
    simp only [metricSE2Sq, squaredR1Distance, squaredS1Distance, squared]
    rcases h3 with rfl | rfl | rfl
    · simp only [hj, Fl.nan_mul, Fl.nan_add, Fl.add_nan]
    · simp only [hj, Fl.nan_mul, Fl.nan_add, Fl.add_nan]
    · simp only [s1Distance_nan hj, Fl.nan_mul, Fl.add_nan]

theorem dist_ne_nan {M : Metric (Fl Φ) d} (hM : NanMetric M) {q x : Pt (Fl Φ) d} {b : Fl Φ}
    (h : M.dist q x < b) : ¬ HasNan x := by
  intro hx
  rw [hM q x (Or.inr hx)] at h
  exact Fl.not_nan_lt _ h

/-- Neighbors without NaN distances are strictly weakly ordered. -/
theorem strictWeakOn_fl {l : List (Neighbor (Fl Φ))} (h : ∀ a ∈ l, a.distance ≠ .nan) :
    StrictWeakOn Neighbor.lt l := by
  have key : ∀ a b : Neighbor (Fl Φ), Neighbor.lt a b = Fl.blt a.distance b.distance := fun a b => by
    unfold Neighbor.lt
    exact Bool.decide_eq_true
  refine ⟨fun a ha => ?_, fun a ha b hb c hc => ?_, fun a ha b hb c hc => ?_⟩
  · rw [key]
    have := h a ha
    cases a.distance <;> simp_all [Fl.blt]
  · rw [key, key, key]
    have h1 := h a ha
    have h2 := h b hb
    have h3 := h c hc
    revert h1 h2 h3
    rcases a.distance with _ | s | ⟨x, _⟩ <;> rcases b.distance with _ | t | ⟨y, _⟩ <;>
      rcases c.distance with _ | u | ⟨z, _⟩ <;> simp [Fl.blt]
    all_goals try (cases s <;> simp)
    all_goals try (cases t <;> simp)
    exact fun h h' => h.trans h'
  · rw [key, key, key, key, key, key]
    have h1 := h a ha
    have h2 := h b hb
    have h3 := h c hc
    revert h1 h2 h3
    rcases a.distance with _ | s | ⟨x, _⟩ <;> rcases b.distance with _ | t | ⟨y, _⟩ <;>
      rcases c.distance with _ | u | ⟨z, _⟩ <;> simp [Fl.blt]
    all_goals try (cases s <;> simp)
    all_goals try (cases t <;> simp)
    exact fun h1 h2 h3 h4 => ⟨h3.trans h1, h2.trans h4⟩

/-- C81 (partial; missing: box searches, other metrics and the influence on other points, see `c81_false`): a
point with a NaN coordinate is never reported as a nearest neighbor. -/
theorem c81_nn_partial (T : KdTree (Fl Φ) d β) (hM : NanMetric T.metric) (q : Pt (Fl Φ) d)
    (nn : Neighbor (Fl Φ)) :
    T.searchNn q nn = ⟨nn.index, T.num.big⟩ ∨ ¬ HasNan (T.pts (T.searchNn q nn).index) := by
  rcases c81_nn T q nn with h | ⟨i, _, e, b, h⟩
  · exact Or.inl h
  · right
    rw [e]
    exact dist_ne_nan hM h

/-- C81 (partial): nor among the k nearest neighbors, apart from what the range held before. -/
theorem c81_knn_partial (T : KdTree (Fl Φ) d β) (hM : NanMetric T.metric) (q : Pt (Fl Φ) d)
    (buf out : List (Neighbor (Fl Φ))) (h : T.searchKnnRange q buf = .ok out) : ∀ a ∈ out,
      (∃ b ∈ buf, a = b ∨ a = ⟨b.index, T.num.big⟩) ∨ ¬ HasNan (T.pts a.index) := by
  intro a ha
  rcases (c81_knn T q buf out h).2 a ha with h | ⟨i, _, rfl, b, h⟩
  · exact Or.inl h
  · exact Or.inr (dist_ne_nan hM h)

/-- C81 (partial): nor by a radius search, sorted or not; sorting is well defined because no distance in the
result is NaN, even if the radius is infinite. -/
theorem c81_radius_partial (sorter : StdSort (Neighbor (Fl Φ))) (T : KdTree (Fl Φ) d β)
    (hM : NanMetric T.metric) (q : Pt (Fl Φ) d) (r : Fl Φ) (prior : List (Neighbor (Fl Φ))) (sort : Bool) :
    (T.searchRadius sorter q r prior sort).Perm (T.searchRadius sorter q r prior false) ∧
    ∀ a ∈ T.searchRadius sorter q r prior sort, ¬ HasNan (T.pts a.index) ∧ a.distance < r := by
  have h0 : ∀ a ∈ T.searchRadius sorter q r prior false, ¬ HasNan (T.pts a.index) ∧ a.distance < r := by
    intro a ha
    obtain ⟨i, _, rfl, h⟩ := c81_radius sorter T q r prior a ha
    exact ⟨dist_ne_nan hM h, h⟩
  have hp : (T.searchRadius sorter q r prior sort).Perm (T.searchRadius sorter q r prior false) := by
    cases sort with
    | false => exact List.Perm.refl _
    | true =>
      refine sorter.sort_perm_on _ _ (strictWeakOn_fl fun a ha e => ?_)
      have := (h0 a ha).2
      rw [e] at this
      exact Fl.not_nan_lt _ this
  exact ⟨hp, fun a ha => h0 a (hp.mem_iff.1 ha)⟩

/-- C82 (partial; missing: box searches and other metrics, see `c82_false`): a query with a NaN coordinate finds
nothing, on any tree. -/
theorem c82_query_partial (sorter : StdSort (Neighbor (Fl Φ))) (T : KdTree (Fl Φ) d β)
    (hM : NanMetric T.metric) (q : Pt (Fl Φ) d) (hq : HasNan q) :
    (∀ nn, T.searchNn q nn = ⟨nn.index, T.num.big⟩) ∧
    (∀ buf x, buf.getLast? = some x →
      T.searchKnnRange q buf = .ok (buf.set (buf.length - 1) ⟨x.index, T.num.big⟩)) ∧
    ∀ r prior, T.searchRadius sorter q r prior false = [] := by
  have hd : ∀ i, T.metric.dist q (T.pts i) = .nan := fun i => hM _ _ (Or.inl hq)
  refine ⟨fun nn => ?_, fun buf x hx => ?_, fun r prior => ?_⟩
  · rcases c81_nn T q nn with h | ⟨i, _, _, b, h⟩
    · exact h
    · rw [hd] at h
      exact absurd h (Fl.not_nan_lt _)
  · unfold KdTree.searchKnnRange knnInit
    simp only [hx, Outcome.bind, Outcome.ok.injEq]
    have := T.searchNearest_keeps q (knnVisitor T.num)
      (fun s => s = ⟨buf.set (buf.length - 1) { x with distance := T.num.big }, 0⟩) (fun s i hi hs => by
        dsimp only [knnVisitor, knnVisit]
        rw [hd, if_neg (Fl.not_nan_lt _)]
        exact hs) _ rfl
    rw [this]
  · cases h : T.searchRadius sorter q r prior false with
    | nil => rfl
    | cons a l =>
      obtain ⟨i, _, _, h'⟩ := c81_radius sorter T q r prior a (by rw [h]; simp)
      rw [hd] at h'
      exact absurd h' (Fl.not_nan_lt _)

/-- C82 (partial): a NaN radius finds nothing, whatever the metric. -/
theorem c82_radius_partial (sorter : StdSort (Neighbor (Fl Φ))) (T : KdTree (Fl Φ) d β) (q : Pt (Fl Φ) d)
    (prior : List (Neighbor (Fl Φ))) : T.searchRadius sorter q .nan prior false = [] := by
  cases h : T.searchRadius sorter q .nan prior false with
  | nil => rfl
  | cons a l =>
    obtain ⟨i, _, _, h'⟩ := c81_radius sorter T q .nan prior a (by rw [h]; simp)
    exact absurd h' (Fl.not_lt_nan _)

end

/-! ## Witnesses -/

/-- `float`. -/
def float32 : FloatFormat ℚ where
  toRounding := ieee 23 (-149)
  big := (2 ^ 24 - 1) * 2 ^ 104
  big_rd := by decide +kernel
  big_pos := by norm_num

/-- A `float`, rounded from an exact number. -/
def fl (x : ℚ) : Fl float32 := Fl.ofK float32 x

/-- Four points, one with a NaN coordinate. -/
def nanPts : Nat → Pt (Fl float32) 2
  | 0 => ![fl 4, fl 7]
  | 1 => ![fl 5, fl 9]
  | 2 => ![fl 3, .nan]
  | _ => ![0, 0]

/-- C81 is false: a point with a NaN coordinate is in every box as far as this coordinate is concerned; the
maximum metric ignores the NaN, so that the point is reported as nearest neighbor; and because of it the search
misses the nearest neighbor among the other points (point 0 at distance 5). -/
theorem c81_false :
    (∃ T, KdTree.make (euclideanTag (Fl float32) 2) (metricL1 (Fl float32) 2) (Fl.num float32) nanPts 4
        (Ref.optsSliding (Fl float32) 2) 10 = .ok T ∧
      T.searchBox ![fl 2, fl 100] ![fl 4, fl 200] [] = [2]) ∧
    (∃ T, KdTree.make (euclideanTag (Fl float32) 2) (metricLPInf (Fl float32) 2) (Fl.num float32) nanPts 4
        (Ref.optsSliding (Fl float32) 2) 10 = .ok T ∧
      T.searchNn ![fl 3, fl 50] ⟨0, 0⟩ = ⟨2, 0⟩) ∧
    ∃ T, KdTree.make (euclideanTag (Fl float32) 2) (metricL1 (Fl float32) 2) (Fl.num float32) nanPts 4
        ⟨Ref.std, .median, .maxLeafSize 1, .fromSpace, 32⟩ 10 = .ok T ∧
      T.searchNn ![fl 9, fl 7] ⟨0, 0⟩ = ⟨1, fl 6⟩ ∧
      (metricL1 (Fl float32) 2).dist ![fl 9, fl 7] (nanPts 0) = fl 5 := by
  obtain ⟨T, h1, h2⟩ := Outcome.exists_of_check (x := KdTree.make (euclideanTag (Fl float32) 2)
    (metricL1 (Fl float32) 2) (Fl.num float32) nanPts 4 (Ref.optsSliding (Fl float32) 2) 10)
    (p := fun T => decide (T.searchBox ![fl 2, fl 100] ![fl 4, fl 200] [] = [2])) (by decide +kernel)
  obtain ⟨U, h3, h4⟩ := Outcome.exists_of_check (x := KdTree.make (euclideanTag (Fl float32) 2)
    (metricLPInf (Fl float32) 2) (Fl.num float32) nanPts 4 (Ref.optsSliding (Fl float32) 2) 10)
    (p := fun T => decide (T.searchNn ![fl 3, fl 50] ⟨0, 0⟩ = ⟨2, 0⟩)) (by decide +kernel)
  obtain ⟨V, h5, h6⟩ := Outcome.exists_of_check (x := KdTree.make (euclideanTag (Fl float32) 2)
    (metricL1 (Fl float32) 2) (Fl.num float32) nanPts 4 ⟨Ref.std, .median, .maxLeafSize 1, .fromSpace, 32⟩ 10)
    (p := fun T => decide (T.searchNn ![fl 9, fl 7] ⟨0, 0⟩ = ⟨1, fl 6⟩)) (by decide +kernel)
  exact ⟨⟨T, h1, of_decide_eq_true h2⟩, ⟨U, h3, of_decide_eq_true h4⟩, V, h5, of_decide_eq_true h6,
    by decide +kernel⟩

/-- Four points of the plane. -/
def plainPts : Nat → Pt (Fl float32) 2
  | 0 => ![fl 4, fl 7]
  | 1 => ![fl 5, fl 9]
  | 2 => ![fl 3, fl 2]
  | _ => ![0, 0]

/-- C82 is false: a box with NaN bounds contains all points, and what a search with a box that has NaN bounds in
one dimension returns depends on `max_leaf_size`. -/
theorem c82_false :
    (∃ T, KdTree.make (euclideanTag (Fl float32) 2) (metricL1 (Fl float32) 2) (Fl.num float32) plainPts 4
        ⟨Ref.std, .sliding, .maxLeafSize 1, .fromSpace, 32⟩ 10 = .ok T ∧
      (T.searchBox ![.nan, .nan] ![.nan, .nan] []).length = 4 ∧
      T.searchBox ![.nan, fl 1] ![.nan, fl 8] [] = []) ∧
    ∃ T, KdTree.make (euclideanTag (Fl float32) 2) (metricL1 (Fl float32) 2) (Fl.num float32) plainPts 4
        ⟨Ref.std, .sliding, .maxLeafSize 4, .fromSpace, 32⟩ 10 = .ok T ∧
      T.searchBox ![.nan, fl 1] ![.nan, fl 8] [] = [0, 2] := by
  obtain ⟨T, h1, h2⟩ := Outcome.exists_of_check (x := KdTree.make (euclideanTag (Fl float32) 2)
    (metricL1 (Fl float32) 2) (Fl.num float32) plainPts 4 ⟨Ref.std, .sliding, .maxLeafSize 1, .fromSpace, 32⟩ 10)
    (p := fun T => decide ((T.searchBox ![.nan, .nan] ![.nan, .nan] []).length = 4) &&
      decide (T.searchBox ![.nan, fl 1] ![.nan, fl 8] [] = [])) (by decide +kernel)
  obtain ⟨U, h3, h4⟩ := Outcome.exists_of_check (x := KdTree.make (euclideanTag (Fl float32) 2)
    (metricL1 (Fl float32) 2) (Fl.num float32) plainPts 4 ⟨Ref.std, .sliding, .maxLeafSize 4, .fromSpace, 32⟩ 10)
    (p := fun T => decide (T.searchBox ![.nan, fl 1] ![.nan, fl 8] [] = [0, 2])) (by decide +kernel)
  rw [Bool.and_eq_true] at h2
  exact ⟨⟨T, h1, of_decide_eq_true h2.1, of_decide_eq_true h2.2⟩, U, h3, of_decide_eq_true h4⟩

/-- The case of `c81_nn_partial`: the tree over the points with NaN; both outcomes occur. -/
example : ∃ T, KdTree.make (euclideanTag (Fl float32) 2) (metricL1 (Fl float32) 2) (Fl.num float32) nanPts 4
      (Ref.optsSliding (Fl float32) 2) 10 = .ok T ∧ NanMetric T.metric ∧ HasNan (T.pts 2) ∧
    T.searchNn ![fl 3, fl 7] ⟨0, 0⟩ = ⟨0, fl 1⟩ ∧ T.searchNn ![fl 3, .nan] ⟨77, 0⟩ = ⟨77, (Fl.num float32).big⟩ := by
  obtain ⟨T, h1, h2⟩ := Outcome.exists_of_check (x := KdTree.make (euclideanTag (Fl float32) 2)
    (metricL1 (Fl float32) 2) (Fl.num float32) nanPts 4 (Ref.optsSliding (Fl float32) 2) 10)
    (p := fun T => decide (T.pts 2 1 = .nan) && decide (T.searchNn ![fl 3, fl 7] ⟨0, 0⟩ = ⟨0, fl 1⟩) &&
      decide (T.searchNn ![fl 3, .nan] ⟨77, 0⟩ = ⟨77, (Fl.num float32).big⟩)) (by decide +kernel)
  simp only [Bool.and_eq_true, decide_eq_true_eq] at h2
  have hm : T.metric = metricL1 (Fl float32) 2 := by
    unfold KdTree.make at h1
    cases hb : buildTree (KdTree.cfg (euclideanTag (Fl float32) 2) (Fl.num float32) nanPts
      (Ref.optsSliding (Fl float32) 2)) 4 (Ref.optsSliding (Fl float32) 2).bounds 10 with
    | ok t =>
      rw [hb] at h1
      simp only [Outcome.bind, Outcome.ok.injEq] at h1
      rw [← h1]
    | ub => simp [hb, Outcome.bind] at h1
    | oof => simp [hb, Outcome.bind] at h1
  exact ⟨T, h1, by rw [hm]; exact c81_metrics.1, ⟨1, h2.1.1⟩, h2.1.2, h2.2⟩

end Pico.Props
