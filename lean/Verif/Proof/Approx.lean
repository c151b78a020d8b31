import Verif.Proof.Exact
import Mathlib.Data.List.Sort
import Mathlib.Tactic.FieldSimp
import Mathlib.Tactic.Positivity

/-! # Sorted distances, and the approximate searches -/

set_option linter.unusedSectionVars false

namespace Pico

section Smallest
variable {α : Type} [LinearOrder α]

theorem mergeSort_sorted (l : List α) :
    (l.mergeSort (fun a b => decide (a ≤ b))).Pairwise (· ≤ ·) := by
  have := List.pairwise_mergeSort (le := fun a b : α => decide (a ≤ b))
    (fun a b c h1 h2 => by simp only [decide_eq_true_eq] at *; exact h1.trans h2)
    (fun a b => by simpa using le_total a b) l
  exact this.imp fun h => by simpa using h

/-- A sorted list with these elements is the sorted list. -/
theorem eq_mergeSort {l m : List α} (hs : m.Pairwise (· ≤ ·)) (hp : m.Perm l) :
    m = l.mergeSort (fun a b => decide (a ≤ b)) := by
  refine List.Perm.eq_of_pairwise (le := (· ≤ ·)) ?_ hs (mergeSort_sorted l)
    (hp.trans (List.mergeSort_perm l _).symm)
  intro a b _ _ h1 h2
  exact le_antisymm h1 h2

theorem Spec.IsKnn.map_distance {n k : Nat} {dist : Nat → α} {out : List (Neighbor α)}
    (h : Spec.IsKnn n k dist out) : out.map Neighbor.distance = Spec.smallest n k dist := by
  obtain ⟨hlen, hs, rest, hp, hr⟩ := h
  have hall : (Spec.all n dist).map Neighbor.distance = (List.range n).map dist := by
    simp [Spec.all]
  set rs := (rest.map Neighbor.distance).mergeSort (fun a b => decide (a ≤ b)) with hrs
  have hrp : rs.Perm (rest.map Neighbor.distance) := List.mergeSort_perm _ _
  have hperm : (out.map Neighbor.distance ++ rs).Perm ((List.range n).map dist) := by
    refine (hrp.append_left _).trans ?_
    rw [← List.map_append, ← hall]
    exact hp.map _
  have hsorted : (out.map Neighbor.distance ++ rs).Pairwise (· ≤ ·) := by
    rw [List.pairwise_append]
    refine ⟨?_, mergeSort_sorted _, ?_⟩
    · rw [List.pairwise_map]; exact hs
    · intro a ha b hb
      obtain ⟨x, hx, rfl⟩ := List.mem_map.1 ha
      obtain ⟨y, hy, rfl⟩ := List.mem_map.1 (hrp.subset hb)
      exact hr x hx y hy
  unfold Spec.smallest
  rw [← eq_mergeSort hsorted hperm]
  by_cases hkn : k ≤ n
  · rw [List.take_append_of_le_length (by simp [hlen, hkn]), List.take_of_length_le (by simp [hlen])]
  · have hl := hperm.length_eq
    simp only [List.length_append, List.length_map, List.length_range, hlen] at hl
    have : rs = [] := List.eq_nil_of_length_eq_zero (by omega)
    rw [this, List.append_nil, List.take_of_length_le]
    simp [hlen]

theorem Spec.length_smallest (n k : Nat) (dist : Nat → α) :
    (Spec.smallest n k dist).length = min k n := by
  simp [Spec.smallest]

/-- In a sorted list at most `i` elements are smaller than the `i`-th. -/
theorem countP_lt_sorted {l : List α} (h : l.Pairwise (· ≤ ·)) (i : Nat) (hi : i < l.length) :
    l.countP (fun x => decide (x < l[i])) ≤ i := by
  have hd : l.drop i = l[i] :: l.drop (i + 1) := List.drop_eq_getElem_cons hi
  have hs := h.drop (i := i)
  rw [hd, List.pairwise_cons] at hs
  have hz : (l.drop i).countP (fun x => decide (x < l[i])) = 0 := by
    rw [List.countP_eq_zero]
    intro x hx
    rw [hd] at hx
    rcases List.mem_cons.1 hx with rfl | hx
    · simp
    · simpa using hs.1 x hx
  calc l.countP (fun x => decide (x < l[i]))
      = (l.take i ++ l.drop i).countP (fun x => decide (x < l[i])) := by rw [List.take_append_drop]
    _ = (l.take i).countP (fun x => decide (x < l[i])) := by rw [List.countP_append, hz, Nat.add_zero]
    _ ≤ (l.take i).length := List.countP_le_length
    _ ≤ i := by rw [List.length_take]; omega

/-- In a sorted list at least `i + 1` elements are below any bound above the `i`-th. -/
theorem countP_sorted_lt {l : List α} (h : l.Pairwise (· ≤ ·)) (i : Nat) (hi : i < l.length) (z : α)
    (hz : l[i] < z) : i + 1 ≤ l.countP (fun x => decide (x < z)) := by
  have h1 : (l.take (i + 1)).countP (fun x => decide (x < z)) = i + 1 := by
    rw [List.countP_eq_length.2, List.length_take]
    · omega
    · intro x hx
      rw [decide_eq_true_eq]
      refine lt_of_le_of_lt ?_ hz
      obtain ⟨k, hk, rfl⟩ := List.mem_iff_getElem.1 hx
      rw [List.getElem_take]
      have hk' : k < i + 1 := by
        rw [List.length_take] at hk; omega
      rcases Nat.lt_or_ge k i with hlt | hge
      · exact List.pairwise_iff_getElem.1 h k i (by omega) hi hlt
      · have : k = i := by omega
        subst this; exact le_rfl
  have h2 : (l.take (i + 1)).countP (fun x => decide (x < z)) ≤ l.countP (fun x => decide (x < z)) :=
    (List.take_sublist _ _).countP_le
  omega

end Smallest

section Approx
variable {α : Type} [Field α] [LinearOrder α] [IsStrictOrderedRing α] {d : Nat} {β : Type}
variable {T : KdTree α d β} {q : Pt α d}

/-- The distance the approximate visitors store. -/
def scaled (e : α) (dist : Nat → α) (i : Nat) : α := dist i * (1 / e)

theorem visitAll_approxNn (e : α) (dist : Nat → α) (l : List Nat) (s : Neighbor α) :
    visitAll (approxNnVisitor e) dist l s = visitAll nnVisitor (scaled e dist) l s := rfl

theorem visitAll_approxKnn (N : Num α) (e : α) (dist : Nat → α) (l : List Nat) (s : KnnState α) :
    visitAll (approxKnnVisitor N e) dist l s = visitAll (knnVisitor N) (scaled e dist) l s := rfl

theorem visitAll_approxRadius (e r : α) (dist : Nat → α) (l : List Nat) (s : List (Neighbor α)) :
    visitAll (approxRadiusVisitor e r) dist l s =
      visitAll (radiusVisitor (r * (1 / e))) (scaled e dist) l s := rfl

theorem scaled_mul {e : α} (he : 0 < e) (dist : Nat → α) (i : Nat) : scaled e dist i * e = dist i := by
  unfold scaled; field_simp

theorem scaled_le {e : α} (he : 1 ≤ e) {dist : Nat → α} {i : Nat} (h : 0 ≤ dist i) :
    scaled e dist i ≤ dist i := by
  have he0 : 0 < e := lt_of_lt_of_le one_pos he
  have h1 := scaled_mul he0 dist i
  have h2 : 0 ≤ scaled e dist i := by unfold scaled; positivity
  nlinarith

section Final
variable {n : Nat} {dist : Nat → α} {N : Num α}

/-- The visitor of the approximate `search_knn` is one with a `max()` that never grows. -/
theorem approxKnnInit_shrinks {e : α} (he : 1 ≤ e) (hnn : ∀ i < n, 0 ≤ dist i)
    (hbig : ∀ i < n, dist i < N.big) {buf : List (Neighbor α)} (hb : 0 < buf.length) :
    ∃ s Inv, knnInit N buf = .ok s ∧ Inv s ∧ Shrinks (approxKnnVisitor N e) dist (· < n) Inv := by
  obtain ⟨s, Inv, h1, h2, h3⟩ := knnInit_shrinks (dist := scaled e dist) (n := n)
    (fun i hi => lt_of_le_of_lt (scaled_le he (hnn i hi)) (hbig i hi)) hb
  exact ⟨s, Inv, h1, h2, fun s i hi hs => h3 s i hi hs⟩

/-- Approximate nearest neighbor. -/
theorem Final.nnApprox {e : α} {nn t : Neighbor α}
    (h : Final n dist (approxNnVisitor e) (nnInit N nn) t) (hn : 0 < n) (he : 0 < e)
    (hnn : ∀ i < n, 0 ≤ dist i)
    (hbig : ∀ i < n, dist i < N.big)
    (hbig' : ∀ i < n, dist i * (1 / e) < N.big) :
    ∃ i < n, t.index = i ∧
      t.distance * e = dist i ∧
      (1 ≤ e → ∀ j < n, dist i ≤ e * dist j) ∧
      (e ≤ 1 → ∀ j < n, dist i ≤ dist j) := by
  obtain ⟨vis, skip, hp, he', hk⟩ := h
  rw [he'] at hk ⊢
  rw [visitAll_approxNn] at hk ⊢
  have hmem := perm_range_mem hp
  rcases nn_visitAll (scaled e dist) vis (nnInit N nn) with ⟨h1, h2⟩ | ⟨i, hi, h1, h2, h3⟩
  · exfalso
    rw [h1] at hk
    rcases (hmem 0).1 hn with h0 | h0
    · exact absurd (hbig' 0 hn) (not_lt.2 (h2 0 h0))
    · exact absurd (hbig 0 hn) (not_lt.2 (hk 0 h0))
  · rw [h1] at hk ⊢
    have hi' := (hmem i).2 (Or.inl hi)
    have hsi := scaled_mul he dist i
    have hvis : ∀ j ∈ vis, dist i ≤ dist j := by
      intro j hj
      have := mul_le_mul_of_nonneg_right (h3 j hj) he.le
      rwa [scaled_mul he, scaled_mul he] at this
    have hskip : ∀ j ∈ skip, dist i ≤ e * dist j := by
      intro j hj
      have h4 : scaled e dist i ≤ dist j := hk j hj
      nlinarith
    refine ⟨i, hi', rfl, hsi, ?_, ?_⟩
    · intro he1 j hj
      rcases (hmem j).1 hj with hj' | hj'
      · have h4 := hvis j hj'
        have h5 : 0 ≤ dist j := hnn j hj
        change dist i ≤ e * dist j
        nlinarith
      · exact hskip j hj'
    · intro he1 j hj
      rcases (hmem j).1 hj with hj' | hj'
      · exact hvis j hj'
      · have h4 := hskip j hj'
        have h5 : 0 ≤ dist j := hnn j hj
        change dist i ≤ dist j
        nlinarith

/-- Approximate k nearest neighbors. -/
theorem Final.knnApprox {e : α} {buf : List (Neighbor α)} {s t : KnnState α}
    (hs : knnInit N buf = .ok s) (h : Final n dist (approxKnnVisitor N e) s t) (he : 1 ≤ e)
    (hnn : ∀ i < n, 0 ≤ dist i)
    (hbig : ∀ i < n, dist i < N.big)
    (hb : 0 < buf.length) (hbn : buf.length ≤ n) :
    ∃ L, t.buf = L ∧ L.length = buf.length ∧
      L.Pairwise (fun a b => a.distance ≤ b.distance) ∧
      (L.map Neighbor.index).Nodup ∧
      (∀ a ∈ L, a.index < n ∧ a.distance * e = dist a.index) ∧
      ∀ i (hi : i < L.length) (hi' : i < (Spec.smallest n buf.length
        dist).length), L[i].distance ≤
        (Spec.smallest n buf.length dist)[i] := by
  have he0 : 0 < e := lt_of_lt_of_le one_pos he
  have hsc : ∀ i < n, scaled e dist i ≤ dist i := fun i hi => scaled_le he (hnn i hi)
  have hbig' : ∀ i < n, scaled e dist i < N.big := fun i hi => lt_of_le_of_lt (hsc i hi) (hbig i hi)
  obtain ⟨init, hi, hlen, hlast, hdl, hidx, hinv⟩ := knnInit_inv N buf hb
  rw [hi] at hs
  cases hs
  obtain ⟨vis, skip, hp, hex, hk⟩ := h
  have hmem := perm_range_mem hp
  obtain ⟨L, R, hL⟩ := knn_visitAll N (scaled e dist) init hlast vis
    (fun i hi => hbig' i ((hmem i).2 (Or.inl hi))) hinv
  rw [List.nil_append] at hL
  rw [hex, visitAll_approxKnn] at hk
  change ∀ i ∈ skip, knnMax N (visitAll (knnVisitor N) (scaled e dist) vis ⟨init, 0⟩) ≤ dist i
    at hk
  have hplen : vis.length + skip.length = n := by
    have := hp.length_eq
    simpa using this
  have hLR : L.length + R.length = vis.length := by
    have := hL.perm.length_eq
    simpa using this
  -- the buffer is full
  have hfull : L.length = init.length := by
    by_contra hc
    have hlt : L.length < init.length := lt_of_le_of_ne hL.le hc
    have hR : R = [] := by
      by_contra hc'; exact hc (hL.full hc')
    have hskip : skip = [] := by
      rcases List.eq_nil_or_concat skip with h0 | ⟨l, x, h0⟩
      · exact h0
      · exfalso
        have hx : x ∈ skip := by rw [h0]; simp
        have := hk x hx
        rw [knnMax_not_full hL hlast hlt] at this
        exact absurd (hbig x ((hmem x).2 (Or.inr hx))) (not_lt.2 this)
    subst hR hskip
    simp only [List.length_nil, Nat.add_zero] at hplen hLR
    omega
  have hLlen : L.length = buf.length := by omega
  obtain ⟨L0, z, hz, hmax⟩ := knnMax_full hL hfull (by omega)
  rw [hmax] at hk
  have hLmem : ∀ a ∈ L, ∃ i ∈ vis, a = ⟨i, scaled e dist i⟩ := by
    intro a ha
    have := hL.perm.subset (List.mem_append_left R ha)
    obtain ⟨i, hi, rfl⟩ := List.mem_map.1 this
    exact ⟨i, hi, rfl⟩
  have hsorted := hL.sorted
  have hlez : ∀ a ∈ L, a.distance ≤ z.distance := by
    intro a ha
    rw [hz, List.pairwise_append] at hsorted
    rw [hz] at ha
    rcases List.mem_append.1 ha with ha | ha
    · exact hsorted.2.2 a ha z (by simp)
    · simp only [List.mem_singleton] at ha; rw [ha]
  refine ⟨L, ?_, hLlen, hL.sorted, ?_, ?_, ?_⟩
  · rw [hex, visitAll_approxKnn, hL.buf, List.drop_eq_nil_of_le (by omega), List.append_nil]
  · have h1 : ((L ++ R).map Neighbor.index).Perm vis := by
      have := hL.perm.map Neighbor.index
      simpa [Function.comp_def] using this
    have h2 : vis.Nodup := by
      have := hp.nodup_iff.2 List.nodup_range
      exact (List.nodup_append.1 this).1
    have h3 := h1.nodup_iff.2 h2
    rw [List.map_append] at h3
    exact (List.nodup_append.1 h3).1
  · intro a ha
    obtain ⟨i, hi, rfl⟩ := hLmem a ha
    exact ⟨(hmem i).2 (Or.inl hi), scaled_mul he0 dist i⟩
  · intro i hi hi'
    by_contra hc
    push Not at hc
    set w := L[i].distance with hw
    -- at least i + 1 points have distance below w
    have hsm : (Spec.smallest n buf.length dist)[i] =
        ((List.range n).map dist |>.mergeSort (fun a b => decide (a ≤ b)))[i]'(by
          simp [Spec.smallest] at hi' ⊢; omega) := List.getElem_take ..
    rw [hsm] at hc
    have hcount := countP_sorted_lt (mergeSort_sorted ((List.range n).map dist)) i
      (by simp [Spec.smallest] at hi' ⊢; omega) w hc
    rw [(List.mergeSort_perm _ _).countP_eq, List.countP_map] at hcount
    -- they were all visited and are all in L
    have h1 : (List.range n).countP ((fun x => decide (x < w)) ∘ dist) ≤
        vis.countP (fun j => decide (scaled e dist j < w)) := by
      rw [← hp.countP_eq, List.countP_append]
      have hs0 : skip.countP ((fun x => decide (x < w)) ∘ dist) = 0 := by
        rw [List.countP_eq_zero]
        intro j hj
        have h4 := hk j hj
        have h5 := hlez L[i] (List.getElem_mem hi)
        simp only [Function.comp_apply, decide_eq_true_eq, not_lt]
        exact (h5.trans h4)
      rw [hs0, Nat.add_zero]
      refine List.countP_mono_left ?_
      intro j hj hjw
      simp only [Function.comp_apply, decide_eq_true_eq] at hjw ⊢
      exact lt_of_le_of_lt (hsc j ((hmem j).2 (Or.inl hj))) hjw
    have h2 : vis.countP (fun j => decide (scaled e dist j < w)) =
        (L ++ R).countP (fun a => decide (a.distance < w)) := by
      rw [hL.perm.countP_eq, List.countP_map]
      rfl
    have h3 : R.countP (fun a => decide (a.distance < w)) = 0 := by
      rw [List.countP_eq_zero]
      intro b hb
      have := hL.rejected L[i] (List.getElem_mem hi) b hb
      simpa using this
    have h4 : L.countP (fun a => decide (a.distance < w)) ≤ i := by
      have hs : (L.map Neighbor.distance).Pairwise (· ≤ ·) := by
        rw [List.pairwise_map]; exact hL.sorted
      have := countP_lt_sorted hs i (by simpa using hi)
      rw [List.countP_map, List.getElem_map] at this
      exact this
    rw [List.countP_append, h3, Nat.add_zero] at h2
    omega

/-- Approximate radius search. -/
theorem Final.radiusApprox {r e : α} {m t : List (Neighbor α)}
    (h : Final n dist (approxRadiusVisitor e r) (radiusInit m) t) (he : 1 ≤ e)
    (hnn : ∀ i < n, 0 ≤ dist i) {out : List (Neighbor α)} (ho : out.Perm t) :
    (out.map Neighbor.index).Nodup ∧
    (∀ a ∈ out, a.index < n ∧ a.distance * e = dist a.index ∧ dist a.index < r) ∧
    (∀ i < n, dist i * e < r → ∃ a ∈ out, a.index = i) := by
  have he0 : 0 < e := lt_of_lt_of_le one_pos he
  obtain ⟨vis, skip, hp, hex, hk⟩ := h
  rw [visitAll_approxRadius, radius_visitAll] at hex
  change ∀ i ∈ skip, r * (1 / e) ≤ dist i at hk
  have hmem := perm_range_mem hp
  have hr : r * (1 / e) * e = r := by field_simp
  have hout : out.Perm
      ((vis.map fun i => (⟨i, scaled e dist i⟩ : Neighbor α)).filter
        fun x => decide (x.distance < r * (1 / e))) := by
    rw [hex] at ho
    exact ho
  refine ⟨?_, ?_, ?_⟩
  · have h1 := hout.map Neighbor.index
    refine h1.nodup_iff.2 ?_
    have h2 : vis.Nodup := (List.nodup_append.1 (hp.nodup_iff.2 List.nodup_range)).1
    have h3 : ((vis.map fun i => (⟨i, scaled e dist i⟩ : Neighbor α)).map Neighbor.index).Nodup := by
      simpa [Function.comp_def] using h2
    exact h3.sublist (List.filter_sublist.map _)
  · intro a ha
    have := hout.subset ha
    rw [List.mem_filter, List.mem_map] at this
    obtain ⟨⟨i, hi, rfl⟩, h2⟩ := this
    rw [decide_eq_true_eq] at h2
    refine ⟨(hmem i).2 (Or.inl hi), scaled_mul he0 dist i, ?_⟩
    have := mul_lt_mul_of_pos_right h2 he0
    rw [hr] at this
    change scaled e dist i * e < r at this
    rwa [scaled_mul he0] at this
  · intro i hi hir
    have hd0 : 0 ≤ dist i := hnn i hi
    have hlt : dist i < r * (1 / e) := by
      by_contra hc
      push Not at hc
      have := mul_le_mul_of_nonneg_right hc he0.le
      rw [hr] at this
      exact absurd hir (not_lt.2 this)
    rcases (hmem i).1 hi with hi' | hi'
    · refine ⟨⟨i, scaled e dist i⟩, ?_, rfl⟩
      refine hout.symm.subset ?_
      rw [List.mem_filter]
      refine ⟨List.mem_map_of_mem hi', ?_⟩
      rw [decide_eq_true_eq]
      exact lt_of_le_of_lt (scaled_le he hd0) hlt
    · exact absurd hlt (not_lt.2 (hk i hi'))
end Final

/-- Approximate nearest neighbor. -/
theorem ExactAt.nnApprox (h : ExactAt T q) (hn : 0 < T.n) (e : α) (he : 0 < e)
    (hnn : ∀ i < T.n, 0 ≤ T.metric.dist q (T.pts i))
    (hbig : ∀ i < T.n, T.metric.dist q (T.pts i) < T.num.big)
    (hbig' : ∀ i < T.n, T.metric.dist q (T.pts i) * (1 / e) < T.num.big) (nn : Neighbor α) :
    ∃ i < T.n, (T.searchNnApprox q e nn).index = i ∧
      (T.searchNnApprox q e nn).distance * e = T.metric.dist q (T.pts i) ∧
      (1 ≤ e → ∀ j < T.n, T.metric.dist q (T.pts i) ≤ e * T.metric.dist q (T.pts j)) ∧
      (e ≤ 1 → ∀ j < T.n, T.metric.dist q (T.pts i) ≤ T.metric.dist q (T.pts j)) :=
  (h.final (approxNnVisitor e) (fun _ => True) (nnInit T.num nn)
    (fun s i _ hs => shrinks_nn (scaled e fun i => T.metric.dist q (T.pts i)) s i trivial hs)
    trivial).nnApprox hn he hnn hbig hbig'

/-- Approximate k nearest neighbors. -/
theorem ExactAt.knnApproxRange (h : ExactAt T q) (e : α) (he : 1 ≤ e)
    (hnn : ∀ i < T.n, 0 ≤ T.metric.dist q (T.pts i))
    (hbig : ∀ i < T.n, T.metric.dist q (T.pts i) < T.num.big) (buf : List (Neighbor α))
    (hb : 0 < buf.length) (hbn : buf.length ≤ T.n) :
    ∃ L, T.searchKnnApproxRange q e buf = .ok L ∧ L.length = buf.length ∧
      L.Pairwise (fun a b => a.distance ≤ b.distance) ∧
      (L.map Neighbor.index).Nodup ∧
      (∀ a ∈ L, a.index < T.n ∧ a.distance * e = T.metric.dist q (T.pts a.index)) ∧
      ∀ i (hi : i < L.length) (hi' : i < (Spec.smallest T.n buf.length
        (fun i => T.metric.dist q (T.pts i))).length), L[i].distance ≤
        (Spec.smallest T.n buf.length (fun i => T.metric.dist q (T.pts i)))[i] := by
  have he0 : 0 < e := lt_of_lt_of_le one_pos he
  obtain ⟨s, Inv, hs, hI, hV⟩ := approxKnnInit_shrinks (dist := fun i => T.metric.dist q (T.pts i)) he hnn
    hbig hb
  obtain ⟨L, h1, h2⟩ := Final.knnApprox hs (h.final (approxKnnVisitor T.num e) Inv s hV hI) he hnn hbig
    hb hbn
  refine ⟨L, ?_, h2⟩
  unfold KdTree.searchKnnApproxRange
  rw [hs]
  simp only [Outcome.bind, Outcome.ok.injEq]
  exact h1

/-- Approximate radius search. -/
theorem ExactAt.radiusApprox (h : ExactAt T q) (sorter : StdSort (Neighbor α)) (r e : α) (he : 1 ≤ e)
    (hnn : ∀ i < T.n, 0 ≤ T.metric.dist q (T.pts i)) (n : List (Neighbor α)) (sort : Bool) :
    ((T.searchRadiusApprox sorter q r e n sort).map Neighbor.index).Nodup ∧
    (∀ a ∈ T.searchRadiusApprox sorter q r e n sort, a.index < T.n ∧
      a.distance * e = T.metric.dist q (T.pts a.index) ∧ T.metric.dist q (T.pts a.index) < r) ∧
    (∀ i < T.n, T.metric.dist q (T.pts i) * e < r →
      ∃ a ∈ T.searchRadiusApprox sorter q r e n sort, a.index = i) ∧
    (sort = true → (T.searchRadiusApprox sorter q r e n sort).Pairwise
      fun a b => a.distance ≤ b.distance) := by
  have hf := h.final (approxRadiusVisitor e r) (fun _ => True) (radiusInit n)
    (fun s i _ hs => shrinks_radius (scaled e fun i => T.metric.dist q (T.pts i)) (r * (1 / e)) s i
      trivial hs) trivial
  obtain ⟨h1, h2, h3⟩ := hf.radiusApprox he hnn (out := T.searchRadiusApprox sorter q r e n sort) (by
    unfold KdTree.searchRadiusApprox
    dsimp only
    cases sort with
    | false => exact List.Perm.refl _
    | true => exact sorter.sort_perm _ _ strictWeak_neighborLt)
  refine ⟨h1, h2, h3, ?_⟩
  intro hs
  unfold KdTree.searchRadiusApprox
  subst hs
  simp only [if_true]
  refine (sorter.sort_sorted _ _ strictWeak_neighborLt).imp ?_
  intro a b hab
  simpa [Neighbor.lt] using hab

end Approx

end Pico
