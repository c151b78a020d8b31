import Verif.Proof.Approx
import Verif.Proof.Euclid

/-!
# Searches whose pruning bound is not the metric distance

`metric_lpinf` and `metric_lninf` are not sums over the axes, but the search prunes with the sum of the
per axis offsets.  The bound of a skipped point is then its Manhattan distance.
-/

set_option linter.unusedSectionVars false

namespace Pico

section
variable {α : Type} [LinearOrder α] [Zero α] [Add α] [Sub α] {d : Nat} {β : Type}

/-- As `ExactAt`, but a point may be skipped as soon as `low` exceeds the final `max()`. -/
def LowAt (T : KdTree α d β) (q : Pt α d) (low : Nat → α) : Prop :=
  ∀ (σ : Type) (V : Visitor α σ) (Inv : σ → Prop) (s : σ),
    Shrinks V (fun i => T.metric.dist q (T.pts i)) (· < T.n) Inv → Inv s →
    ∃ vis skip, (vis ++ skip).Perm (List.range T.n) ∧
      T.searchNearest q V s = visitAll V (fun i => T.metric.dist q (T.pts i)) vis s ∧
      ∀ i ∈ skip, V.max (T.searchNearest q V s) < low i

variable {T : KdTree α d β} {q : Pt α d} {low : Nat → α}

theorem LowAt.nn (h : LowAt T q low) (hn : 0 < T.n)
    (hle : ∀ i < T.n, T.metric.dist q (T.pts i) ≤ low i) (hbig : ∀ i < T.n, low i < T.num.big)
    (nn : Neighbor α) :
    ∃ i < T.n, T.searchNn q nn = ⟨i, T.metric.dist q (T.pts i)⟩ ∧
      ∀ j < T.n, T.metric.dist q (T.pts i) ≤ low j := by
  obtain ⟨vis, skip, hp, he, hk⟩ := h _ nnVisitor (fun _ => True) (nnInit T.num nn)
    (fun s i _ hs => shrinks_nn (fun i => T.metric.dist q (T.pts i)) s i trivial hs) trivial
  unfold KdTree.searchNn
  rw [he] at hk ⊢
  have hmem := perm_range_mem hp
  rcases nn_visitAll (fun i => T.metric.dist q (T.pts i)) vis (nnInit T.num nn) with
    ⟨h1, h2⟩ | ⟨i, hi, h1, h2, h3⟩
  · exfalso
    rw [h1] at hk
    rcases (hmem 0).1 hn with h0 | h0
    · exact absurd (lt_of_le_of_lt (hle 0 hn) (hbig 0 hn)) (not_lt.2 (h2 0 h0))
    · exact absurd (hbig 0 hn) (not_lt.2 (hk 0 h0).le)
  · rw [h1] at hk ⊢
    refine ⟨i, (hmem i).2 (Or.inl hi), rfl, ?_⟩
    intro j hj
    rcases (hmem j).1 hj with hj' | hj'
    · exact (h3 j hj').trans (hle j hj)
    · exact (hk j hj').le

theorem LowAt.radius (h : LowAt T q low) (sorter : StdSort (Neighbor α)) (r : α)
    (n : List (Neighbor α)) (sort : Bool) :
    ((T.searchRadius sorter q r n sort).map Neighbor.index).Nodup ∧
    (∀ a ∈ T.searchRadius sorter q r n sort,
      a.index < T.n ∧ a.distance = T.metric.dist q (T.pts a.index) ∧ a.distance < r) ∧
    (∀ i < T.n, T.metric.dist q (T.pts i) < r → low i ≤ r →
      ⟨i, T.metric.dist q (T.pts i)⟩ ∈ T.searchRadius sorter q r n sort) ∧
    (sort = true → (T.searchRadius sorter q r n sort).Pairwise fun a b => a.distance ≤ b.distance) := by
  obtain ⟨vis, skip, hp, he, hk⟩ := h _ (radiusVisitor r) (fun _ => True) (radiusInit n)
    (fun s i _ hs => shrinks_radius (fun i => T.metric.dist q (T.pts i)) r s i trivial hs) trivial
  rw [radius_visitAll] at he
  change ∀ i ∈ skip, r < low i at hk
  have hmem := perm_range_mem hp
  set raw := T.searchNearest q (radiusVisitor r) (radiusInit n) with hraw
  have hrawEq : raw = (vis.map fun i => (⟨i, T.metric.dist q (T.pts i)⟩ : Neighbor α)).filter
      fun x => decide (x.distance < r) := by
    rw [he]; simp [radiusInit]
  have hperm : (T.searchRadius sorter q r n sort).Perm raw := by
    unfold KdTree.searchRadius
    cases sort with
    | false => exact List.Perm.refl _
    | true => exact sorter.sort_perm _ _ strictWeak_neighborLt
  have hrmem : ∀ a, a ∈ T.searchRadius sorter q r n sort ↔
      (∃ i ∈ vis, a = ⟨i, T.metric.dist q (T.pts i)⟩) ∧ a.distance < r := by
    intro a
    rw [hperm.mem_iff, hrawEq, List.mem_filter, List.mem_map, decide_eq_true_eq]
    constructor
    · rintro ⟨⟨i, hi, rfl⟩, h2⟩; exact ⟨⟨i, hi, rfl⟩, h2⟩
    · rintro ⟨⟨i, hi, rfl⟩, h2⟩; exact ⟨⟨i, hi, rfl⟩, h2⟩
  refine ⟨?_, ?_, ?_, ?_⟩
  · rw [(hperm.map Neighbor.index).nodup_iff, hrawEq]
    have h2 : vis.Nodup := (List.nodup_append.1 (hp.nodup_iff.2 List.nodup_range)).1
    have h3 : ((vis.map fun i => (⟨i, T.metric.dist q (T.pts i)⟩ : Neighbor α)).map
        Neighbor.index).Nodup := by
      simpa [Function.comp_def] using h2
    exact (List.filter_sublist.map _).nodup h3
  · intro a ha
    obtain ⟨⟨i, hi, rfl⟩, h2⟩ := (hrmem a).1 ha
    exact ⟨(hmem i).2 (Or.inl hi), rfl, h2⟩
  · intro i hi h1 h2
    rw [hrmem]
    refine ⟨⟨i, ?_, rfl⟩, h1⟩
    rcases (hmem i).1 hi with h3 | h3
    · exact h3
    · exact absurd (hk i h3) (not_lt.2 h2)
  · intro hs
    subst hs
    unfold KdTree.searchRadius
    simp only [if_true]
    refine (sorter.sort_sorted _ _ strictWeak_neighborLt).imp ?_
    intro a b hab
    simpa [Neighbor.lt] using hab

theorem LowAt.knnRange (h : LowAt T q low)
    (hle : ∀ i < T.n, T.metric.dist q (T.pts i) ≤ low i) (hbig : ∀ i < T.n, low i < T.num.big)
    (buf : List (Neighbor α)) (hb : 0 < buf.length) (hbn : buf.length ≤ T.n) :
    ∃ L, T.searchKnnRange q buf = .ok L ∧ L.length = buf.length ∧
      L.Pairwise (fun a b => a.distance ≤ b.distance) ∧
      (L.map Neighbor.index).Nodup ∧
      (∀ a ∈ L, a.index < T.n ∧ a.distance = T.metric.dist q (T.pts a.index)) ∧
      ∀ i (hi : i < L.length) (hi' : i < (Spec.smallest T.n buf.length low).length),
        L[i].distance ≤ (Spec.smallest T.n buf.length low)[i] := by
  set dist := fun i => T.metric.dist q (T.pts i) with hdist
  have hbig' : ∀ i < T.n, dist i < T.num.big := fun i hi => lt_of_le_of_lt (hle i hi) (hbig i hi)
  obtain ⟨init, hi, hlen, hlast, hdl, hidx, hinv⟩ := knnInit_inv T.num buf hb
  obtain ⟨vis, skip, hp, hex, hk⟩ := h _ (knnVisitor T.num) _ ⟨init, 0⟩
    (fun s i hi hs => shrinks_knn T.num dist init hlast s i (hbig' i hi) hs)
    ⟨[], [], [], hinv⟩
  have hmem := perm_range_mem hp
  obtain ⟨L, R, hL⟩ := knn_visitAll T.num dist init hlast vis
    (fun i hi => hbig' i ((hmem i).2 (Or.inl hi))) hinv
  rw [List.nil_append] at hL
  rw [hex] at hk
  change ∀ i ∈ skip, knnMax T.num (visitAll (knnVisitor T.num) dist vis ⟨init, 0⟩) < low i at hk
  have hplen : vis.length + skip.length = T.n := by
    have := hp.length_eq
    simpa using this
  have hLR : L.length + R.length = vis.length := by
    have := hL.perm.length_eq
    simpa using this
  -- the buffer is full
  have hfull : L.length = init.length := by
    by_contra hc
    have hlt : L.length < init.length := lt_of_le_of_ne hL.le hc
    have hR : R = [] := by
      by_contra hc'; exact hc (hL.full hc')
    have hskip : skip = [] := by
      rcases List.eq_nil_or_concat skip with h0 | ⟨l, x, h0⟩
      · exact h0
      · exfalso
        have hx : x ∈ skip := by rw [h0]; simp
        have := hk x hx
        rw [knnMax_not_full hL hlast hlt] at this
        exact absurd (hbig x ((hmem x).2 (Or.inr hx))) (not_lt.2 this.le)
    subst hR hskip
    simp only [List.length_nil, Nat.add_zero] at hplen hLR
    omega
  have hLlen : L.length = buf.length := by omega
  obtain ⟨L0, z, hz, hmax⟩ := knnMax_full hL hfull (by omega)
  rw [hmax] at hk
  have hLmem : ∀ a ∈ L, ∃ i ∈ vis, a = ⟨i, dist i⟩ := by
    intro a ha
    have := hL.perm.subset (List.mem_append_left R ha)
    obtain ⟨i, hi, rfl⟩ := List.mem_map.1 this
    exact ⟨i, hi, rfl⟩
  have hsorted := hL.sorted
  have hlez : ∀ a ∈ L, a.distance ≤ z.distance := by
    intro a ha
    rw [hz, List.pairwise_append] at hsorted
    rw [hz] at ha
    rcases List.mem_append.1 ha with ha | ha
    · exact hsorted.2.2 a ha z (by simp)
    · simp only [List.mem_singleton] at ha; rw [ha]
  refine ⟨L, ?_, hLlen, hL.sorted, ?_, ?_, ?_⟩
  · unfold KdTree.searchKnnRange
    rw [hi]
    simp only [Outcome.bind, Outcome.ok.injEq]
    rw [hex, hL.buf, List.drop_eq_nil_of_le (by omega), List.append_nil]
  · have h1 : ((L ++ R).map Neighbor.index).Perm vis := by
      have := hL.perm.map Neighbor.index
      simpa [Function.comp_def] using this
    have h2 : vis.Nodup := by
      have := hp.nodup_iff.2 List.nodup_range
      exact (List.nodup_append.1 this).1
    have h3 := h1.nodup_iff.2 h2
    rw [List.map_append] at h3
    exact (List.nodup_append.1 h3).1
  · intro a ha
    obtain ⟨i, hi, rfl⟩ := hLmem a ha
    exact ⟨(hmem i).2 (Or.inl hi), rfl⟩
  · intro i hi hi'
    by_contra hc
    push Not at hc
    set w := L[i].distance with hw
    -- at least i + 1 points have a bound below w
    have hsm : (Spec.smallest T.n buf.length low)[i] =
        ((List.range T.n).map low |>.mergeSort (fun a b => decide (a ≤ b)))[i]'(by
          simp [Spec.smallest] at hi' ⊢; omega) := List.getElem_take ..
    rw [hsm] at hc
    have hcount := countP_sorted_lt (mergeSort_sorted ((List.range T.n).map low)) i
      (by simp [Spec.smallest] at hi' ⊢; omega) w hc
    rw [(List.mergeSort_perm _ _).countP_eq, List.countP_map] at hcount
    -- they were all visited and are all in L
    have h1 : (List.range T.n).countP ((fun x => decide (x < w)) ∘ low) ≤
        vis.countP (fun j => decide (dist j < w)) := by
      rw [← hp.countP_eq, List.countP_append]
      have hs0 : skip.countP ((fun x => decide (x < w)) ∘ low) = 0 := by
        rw [List.countP_eq_zero]
        intro j hj
        have h4 := hk j hj
        have h5 := hlez L[i] (List.getElem_mem hi)
        simp only [Function.comp_apply, decide_eq_true_eq, not_lt]
        exact (h5.trans h4.le)
      rw [hs0, Nat.add_zero]
      refine List.countP_mono_left ?_
      intro j hj hjw
      simp only [Function.comp_apply, decide_eq_true_eq] at hjw ⊢
      exact lt_of_le_of_lt (hle j ((hmem j).2 (Or.inl hj))) hjw
    have h2 : vis.countP (fun j => decide (dist j < w)) =
        (L ++ R).countP (fun a => decide (a.distance < w)) := by
      rw [hL.perm.countP_eq, List.countP_map]
      rfl
    have h3 : R.countP (fun a => decide (a.distance < w)) = 0 := by
      rw [List.countP_eq_zero]
      intro b hb
      have := hL.rejected L[i] (List.getElem_mem hi) b hb
      simpa using this
    have h4 : L.countP (fun a => decide (a.distance < w)) ≤ i := by
      have hs : (L.map Neighbor.distance).Pairwise (· ≤ ·) := by
        rw [List.pairwise_map]; exact hL.sorted
      have := countP_lt_sorted hs i (by simpa using hi)
      rw [List.countP_map, List.getElem_map] at this
      exact this
    rw [List.countP_append, h3, Nat.add_zero] at h2
    omega

end

section Metrics
variable {α : Type} [CommRing α] [LinearOrder α] [IsStrictOrderedRing α] {d : Nat}

/-- The guard for metrics whose scalar version is the absolute value, whatever their distance is: the
per axis term is the absolute coordinate difference. -/
theorem lowAt_abs {M : Metric α d} (hone : ∀ x, M.one x = |x|) {N : Num α} {pts : Nat → Pt α d}
    {n : Nat} {o : BuildOpts α d} {fuel : Nat} {T : KdTree α d (Branch1 α d)}
    (h : KdTree.make (euclideanTag α d) M N pts n o fuel = .ok T) (hR : Representable N pts n o)
    (hn : 0 < n) (q : Pt α d) : LowAt T q (fun i => Spec.l1 q (pts i)) := by
  obtain ⟨hperm, _, ⟨box, hB⟩, hel⟩ := KdTree.make_built h hR hn
  obtain ⟨h1, h2, h3, h4, h5, _⟩ := KdTree.make_ok h
  have hg := guard_euclidean (additive_l1 (α := α) (d := d)) q hB [] [] rfl
  simp only [List.nil_append, List.append_nil] at hg
  have hpick : (euclideanTag α d).pick M q = (euclideanTag α d).pick (metricL1 α d) q := by
    funext b
    simp only [euclideanTag, pickEuclidean, hone, metricL1, sabs_eq]
  intro σ V Inv s hV hI
  have hlt : ∀ i ∈ T.data.root.elems T.data.indices, i < T.n := by
    intro i hi
    rw [hel] at hi
    rw [h5]
    exact List.mem_range.1 (hperm.subset hi)
  obtain ⟨vis, skip, hp, he, hk⟩ := searchNearest_low T.tag.splitDim (T.tag.pick T.metric q) V
    (fun i => T.metric.dist q (T.pts i)) T.data.indices (fun i => Spec.l1 q (pts i))
    (fun j i => (metricL1 α d).one (q j - pts i j))
    (fun D off => D = ∑ k, off k) (fun D off j x h => sum_step D off j x h) (· < T.n)
    (fun D off i hi hD ho => by
      rw [hD]
      unfold Spec.l1
      refine Finset.sum_le_sum fun j _ => ?_
      have := ho j
      change off j ≤ sabs (q j - pts i j) at this
      rwa [sabs_eq] at this)
    Inv hV T.data.root 0 (fun _ => 0, s) hlt (by rw [h1, h2, hpick]; exact hg) (by simp)
    (fun i hi j => additive_l1.one_nonneg _) hI
  refine ⟨vis, skip, ?_, ?_, ?_⟩
  · rw [hel] at hp
    rw [h5]
    exact hp.trans hperm
  · unfold KdTree.searchNearest searchNearestRoot
    rw [he]
  · unfold KdTree.searchNearest searchNearestRoot
    rw [he]
    exact hk

end Metrics

end Pico
