import Verif.Proof.RoundingError
import Verif.Props.Builder
import Verif.Props.Nearest

/-!
# C45, C46: floating point

Distances are the computed ones.  In one dimension the searches are exact for every rounding; in two
dimensions they are not (`c46_false`, a `float` example).
-/

set_option linter.unusedSectionVars false

namespace Pico.Props

open Pico Spec

section
variable {K : Type} [Field K] [LinearOrder K] [IsStrictOrderedRing K] (R : Rounding K)
  {N : Num R.F} {pts : Nat → Pt R.F 1} {n : Nat} {o : BuildOpts R.F 1} {fuel : Nat}
  {T : KdTree R.F 1 (Branch1 R.F 1)}

/-- The rounded Manhattan distance in one dimension. -/
def roundedL1 (q p : Pt R.F 1) : K := |R.rd ((q 0).1 - (p 0).1)|

/-- The rounded squared distance in one dimension. -/
def roundedL2 (q p : Pt R.F 1) : K := R.rd (R.rd ((q 0).1 - (p 0).1) ^ 2)

theorem dist_l1_val (q p : Pt R.F 1) : ((metricL1 R.F 1).dist q p).1 = roundedL1 R q p := by
  rw [(axis_l1 R.laws).dist_eq, loopSum_one R.laws]
  simp only [metricL1, sabs, roundedL1]
  split_ifs with h
  · rw [R.val_neg, R.val_sub]
    have : R.rd ((q 0).1 - (p 0).1) < 0 := h
    rw [abs_of_neg this]
  · rw [R.val_sub]
    have : 0 ≤ R.rd ((q 0).1 - (p 0).1) := not_lt.1 h
    rw [abs_of_nonneg this]

theorem dist_l2_val (q p : Pt R.F 1) : ((metricL2Sq R.F 1).dist q p).1 = roundedL2 R q p := by
  rw [(axis_l2Sq R.laws R.squareLaws).dist_eq, loopSum_one R.laws]
  simp only [metricL2Sq, squared, roundedL2]
  rw [R.val_mul, R.val_sub, pow_two]

variable {R}

/-- C45 for `metric_l1`. -/
theorem c45_l1 (h : KdTree.make (euclideanTag R.F 1) (metricL1 R.F 1) N pts n o fuel = .ok T)
    (hR : Representable N pts n o) (hn : 0 < n) (q : Pt R.F 1)
    (hbig : ∀ i < n, roundedL1 R q (pts i) < N.big.1) :
    ∃ dist : Nat → R.F, (∀ i, (dist i).1 = roundedL1 R q (pts i)) ∧
      (∀ nn, IsNN n dist (T.searchNn q nn)) ∧
      (∀ k prior, 0 < k → ∃ out, T.searchKnn q k prior = .ok out ∧ IsKnn n k dist out) ∧
      ∀ sorter r prior sort, IsRadius n dist r (T.searchRadius sorter q r prior sort) := by
  have hE := exactAt_one_dim R.laws (axis_l1 R.laws) h hR hn q
  have hb : ∀ i < n, (metricL1 R.F 1).dist q (pts i) < N.big := by
    intro i hi
    rw [R.lt_iff, dist_l1_val]
    exact hbig i hi
  refine ⟨fun i => (metricL1 R.F 1).dist q (pts i), fun i => dist_l1_val R q (pts i), ?_, ?_, ?_⟩
  · intro nn; exact nn_of_exact h hE hn rfl hb nn
  · intro k prior hk
    obtain ⟨out, h1, h2, _⟩ := knn_of_exact h hE hn rfl hb k hk prior
    exact ⟨out, h1, h2⟩
  · intro sorter r prior sort
    exact (radius_of_exact h hE rfl sorter r prior sort).1

/-- C45 for `metric_l2_squared`. -/
theorem c45_l2 (h : KdTree.make (euclideanTag R.F 1) (metricL2Sq R.F 1) N pts n o fuel = .ok T)
    (hR : Representable N pts n o) (hn : 0 < n) (q : Pt R.F 1)
    (hbig : ∀ i < n, roundedL2 R q (pts i) < N.big.1) :
    ∃ dist : Nat → R.F, (∀ i, (dist i).1 = roundedL2 R q (pts i)) ∧
      (∀ nn, IsNN n dist (T.searchNn q nn)) ∧
      (∀ k prior, 0 < k → ∃ out, T.searchKnn q k prior = .ok out ∧ IsKnn n k dist out) ∧
      ∀ sorter r prior sort, IsRadius n dist r (T.searchRadius sorter q r prior sort) := by
  have hE := exactAt_one_dim R.laws (axis_l2Sq R.laws R.squareLaws) h hR hn q
  have hb : ∀ i < n, (metricL2Sq R.F 1).dist q (pts i) < N.big := by
    intro i hi
    rw [R.lt_iff, dist_l2_val]
    exact hbig i hi
  refine ⟨fun i => (metricL2Sq R.F 1).dist q (pts i), fun i => dist_l2_val R q (pts i), ?_, ?_, ?_⟩
  · intro nn; exact nn_of_exact h hE hn rfl hb nn
  · intro k prior hk
    obtain ⟨out, h1, h2, _⟩ := knn_of_exact h hE hn rfl hb k hk prior
    exact ⟨out, h1, h2⟩
  · intro sorter r prior sort
    exact (radius_of_exact h hE rfl sorter r prior sort).1

end

section Safe
variable {K : Type} [Field K] [LinearOrder K] [IsStrictOrderedRing K] (R : Rounding K)

/-- C22 applies to rounded arithmetic: computed midpoints stay in the cell. -/
theorem splitSafe_rounding {low big a b : R.F} (h : low < a - b) : SplitSafe (R.num low big) a b where
  low x y h1 h2 h3 h4 := lt_of_lt_of_le h (R.mono _ _ (sub_le_sub h1 h4))
  mul x y h1 h2 h3 h4 := by
    have := R.mid x y
    exact ⟨(le_min h1 h3).trans this.1, this.2.trans (max_le h2 h4)⟩
  div x y h1 h2 h3 h4 := by
    have := R.mid x y
    exact ⟨(le_min h1 h3).trans this.1, this.2.trans (max_le h2 h4)⟩

end Safe

/-! ## C46 -/

/-- Single precision: 24 significant bits. -/
abbrev F32 := (ieee 23 (-149)).F

/-- A single precision number (in units of `2^-27`, which does not matter as scaling by a power of two
commutes with rounding). -/
def f32 (m : Int) : F32 := (ieee 23 (-149)).ofK m

/-- Single precision numbers are the integers used below: nothing is rounded when they are written. -/
theorem f32_exact (m : Int) (h : roundTiny 23 (-149) m = m) : (f32 m).1 = m := h

/-- `numeric_limits<float>`: `max()` in the same units. -/
def f32Num : Num F32 := (ieee 23 (-149)).num (-(f32 ((2 ^ 24 - 1) * 2 ^ 131))) (f32 ((2 ^ 24 - 1) * 2 ^ 131))

/-- Five points with single precision coordinates. -/
def nearCircle : Nat → Pt F32 2
  | 0 => ![f32 70998776, f32 136071920]
  | 1 => ![f32 66337584, f32 138404192]
  | 2 => ![f32 12847917, f32 152942240]
  | 3 => ![f32 69484704, f32 136851328]
  | _ => ![f32 123988568, f32 90461208]

/-- C46 is false: five points in the plane with single precision coordinates, `metric_l2_squared`, default
construction.  The nearest neighbor found for the origin has a larger computed distance than point 0. -/
theorem c46_false : ∃ T, KdTree.make (euclideanTag F32 2) (metricL2Sq F32 2) f32Num nearCircle 5
    (Ref.optsSliding F32 2) 10 = .ok T ∧
    (metricL2Sq F32 2).dist ![0, 0] (nearCircle 0) < (T.searchNn ![0, 0] ⟨0, 0⟩).distance := by
  obtain ⟨T, h1, h2⟩ := Outcome.exists_of_check (x := KdTree.make (euclideanTag F32 2) (metricL2Sq F32 2)
    f32Num nearCircle 5 (Ref.optsSliding F32 2) 10)
    (p := fun T => decide ((metricL2Sq F32 2).dist ![0, 0] (nearCircle 0) <
      (T.searchNn ![0, 0] ⟨0, 0⟩).distance)) (by decide +kernel)
  exact ⟨T, h1, of_decide_eq_true h2⟩

/-- The coordinates of the counterexample are single precision numbers. -/
theorem c46_representable : ∀ m ∈ [70998776, 136071920, 66337584, 138404192, 12847917, 152942240,
    69484704, 136851328, 123988568, 90461208], roundTiny 23 (-149) ((m : Int) : ℚ) = m := by
  decide +kernel

section Nearly
variable {K : Type} [Field K] [LinearOrder K] [IsStrictOrderedRing K] {R : Rounding K} {d : Nat} {lo hi : K}
  {β : Type} {N : Num R.F} {n : Nat} {T : KdTree R.F d β} {q : Pt R.F d} {dist : Nat → R.F}

theorem lt_big_of_nearly (hpu0 : 0 ≤ lo) (hpu : lo ≤ 1) (hone : 1 ≤ hi) (hd0 : ∀ i, 0 ≤ (dist i).1)
    (hbig : ∀ i < n, hi * (dist i).1 < lo * N.big.1) : ∀ i < n, dist i < N.big := by
  intro i hi
  rw [R.lt_iff]
  have h1 := hbig i hi
  have h2 := le_mul_of_one_le_left (hd0 i) hone
  by_contra hc
  push Not at hc
  have h3 : 0 < lo * N.big.1 := lt_of_le_of_lt (le_trans (hd0 i) h2) h1
  have h4 : 0 < N.big.1 := by
    by_contra hc'
    push Not at hc'
    exact absurd h3 (not_lt.2 (mul_nonpos_of_nonneg_of_nonpos hpu0 hc'))
  have h5 : lo * N.big.1 ≤ N.big.1 := mul_le_of_le_one_left h4.le hpu
  linarith

/-- The nearest neighbor up to the factor `hi / lo`. -/
theorem nn_of_nearly (hE : NearlyExact T q dist n lo hi) (h3 : T.num = N) (hpu0 : 0 ≤ lo) (hpu : lo ≤ 1)
    (hone : 1 ≤ hi) (hd0 : ∀ i, 0 ≤ (dist i).1) (hn : 0 < n)
    (hbig : ∀ i < n, hi * (dist i).1 < lo * N.big.1) (nn : Neighbor R.F) :
    ∃ i < n, T.searchNn q nn = ⟨i, dist i⟩ ∧ ∀ j < n, lo * (dist i).1 ≤ hi * (dist j).1 := by
  have hb0 := lt_big_of_nearly hpu0 hpu hone hd0 hbig
  obtain ⟨vis, skip, hp, he, hk⟩ := hE _ nnVisitor (fun _ => True)
    (nnInit T.num nn) (fun s i _ hs => shrinks_nn (fun i => dist i) s i trivial hs) trivial
  unfold KdTree.searchNn
  rw [he] at hk ⊢
  have hmem := perm_range_mem hp
  have hskip : ∀ (w : R.F) (j : Nat), dist j = w →
      lo * w.1 ≤ hi * (dist j).1 := by
    rintro w j rfl
    exact le_trans (mul_le_of_le_one_left (hd0 j) hpu) (le_mul_of_one_le_left (hd0 j) hone)
  rcases nn_visitAll (fun i => dist i) vis (nnInit T.num nn) with ⟨h1, h2⟩ | ⟨i, hi, h1, h2, h3⟩
  · exfalso
    rw [h1] at hk
    rcases (hmem 0).1 hn with h0 | h0
    · have := h2 0 h0
      change T.num.big ≤ _ at this
      rw [h3] at this
      exact absurd (hb0 0 hn) (not_lt.2 this)
    · have := hk 0 h0
      change _ * T.num.big.1 ≤ _ at this
      rw [h3] at this
      exact absurd (hbig 0 hn) (not_lt.2 this)
  · rw [h1] at hk ⊢
    refine ⟨i, (hmem i).2 (Or.inl hi), rfl, ?_⟩
    intro j hj
    rcases (hmem j).1 hj with hj' | hj'
    · refine le_trans (mul_le_mul_of_nonneg_left ((R.le_iff _ _).1 (h3 j hj')) hpu0) ?_
      exact hskip _ j rfl
    · exact hk j hj'

/-- The `k` nearest neighbors up to that factor. -/
theorem knn_of_nearly (hE : NearlyExact T q dist n lo hi) (h3 : T.num = N) (h5 : T.n = n) (hpu0 : 0 ≤ lo)
    (hpu : lo ≤ 1) (hone : 1 ≤ hi) (hd0 : ∀ i, 0 ≤ (dist i).1) (hn : 0 < n)
    (hbig : ∀ i < n, hi * (dist i).1 < lo * N.big.1) (k : Nat) (hk0 : 0 < k) (prior : List (Neighbor R.F)) :
    ∃ out rest, T.searchKnn q k prior = .ok out ∧ out.length = min k n ∧
      (out.Pairwise fun a b => a.distance ≤ b.distance) ∧
      (out ++ rest).Perm ((List.range n).map fun i => ⟨i, dist i⟩) ∧
      ∀ a ∈ out, ∀ b ∈ rest, lo * a.distance.1 ≤ hi * b.distance.1 := by
  have hb0 := lt_big_of_nearly hpu0 hpu hone hd0 hbig
  set buf := KdTree.resize (min k T.n) prior with hbuf
  have hlenb : buf.length = min k n := by rw [hbuf, resize_length, h5]
  obtain ⟨init, hi, hlen, hlast, -, -, hinv⟩ := knnInit_inv N buf (by omega)
  obtain ⟨vis, skip, hp, he, hk⟩ := hE _ (knnVisitor N)
    (fun s => ∃ seen L R, KnnInv N init seen s L R) ⟨init, 0⟩
    (fun s i hi hs => shrinks_knn N (fun i => dist i) init hlast s i (hb0 i hi) hs)
    ⟨_, _, _, hinv⟩
  have hmem := perm_range_mem hp
  obtain ⟨L, R', hL⟩ := knn_visitAll N (fun i => dist i) init hlast vis
    (fun i hi => hb0 i ((hmem i).2 (Or.inl hi))) hinv
  rw [List.nil_append] at hL
  have hplen : vis.length + skip.length = n := by
    have := hp.length_eq
    simpa using this
  have hLR : L.length + R'.length = vis.length := by
    have := hL.perm.length_eq
    simpa using this
  rw [he] at hk
  change ∀ i ∈ skip, _ * (knnMax N (visitAll (knnVisitor N) (fun i => dist i) vis ⟨init, 0⟩)).1 ≤ _
    at hk
  have hfull : L.length = init.length := by
    by_contra hc
    have hlt : L.length < init.length := lt_of_le_of_ne hL.le hc
    have hR' : R' = [] := by
      by_contra hc'; exact absurd (hL.full hc') hc
    have hskip : skip = [] := by
      refine List.eq_nil_iff_forall_not_mem.2 fun x hx => ?_
      have := hk x hx
      rw [knnMax_not_full hL hlast hlt] at this
      exact absurd (hbig x ((hmem x).2 (Or.inr hx))) (not_lt.2 this)
    subst hR' hskip
    simp only [List.length_nil, Nat.add_zero] at hplen hLR
    omega
  have hout : T.searchKnn q k prior = .ok L := by
    unfold KdTree.searchKnn KdTree.searchKnnRange
    rw [← hbuf, h3, hi]
    simp only [Outcome.bind, Outcome.ok.injEq]
    rw [he, hL.buf, hfull, List.drop_length, List.append_nil]
  refine ⟨L, R' ++ skip.map fun i => ⟨i, dist i⟩, hout, by omega, hL.sorted, ?_, ?_⟩
  · rw [← List.append_assoc]
    refine (hL.perm.append_right _).trans ?_
    rw [← List.map_append]
    exact hp.map _
  · obtain ⟨L0, z, hz, hmax⟩ := knnMax_full hL hfull (by omega)
    rw [hmax] at hk
    have hsorted := hL.sorted
    rw [hz, List.pairwise_append] at hsorted
    have hlez : ∀ a ∈ L, a.distance ≤ z.distance := by
      intro a ha
      rw [hz] at ha
      rcases List.mem_append.1 ha with ha | ha
      · exact hsorted.2.2 a ha z (by simp)
      · simp only [List.mem_singleton] at ha; rw [ha]
    intro a ha b hb
    rcases List.mem_append.1 hb with hb | hb
    · have h1 : a.distance.1 ≤ b.distance.1 := hL.rejected a ha b hb
      obtain ⟨i, _, rfl⟩ := List.mem_map.1 (hL.perm.subset (List.mem_append_right L hb))
      exact (mul_le_mul_of_nonneg_left h1 hpu0).trans
        ((mul_le_of_le_one_left (hd0 i) hpu).trans (le_mul_of_one_le_left (hd0 i) hone))
    · obtain ⟨i, hi, rfl⟩ := List.mem_map.1 hb
      exact (mul_le_mul_of_nonneg_left ((R.le_iff _ _).1 (hlez a ha)) hpu0).trans (hk i hi)

/-- Radius search up to that factor. -/
theorem radius_of_nearly (hE : NearlyExact T q dist n lo hi) (sorter : StdSort (Neighbor R.F)) (r : R.F)
    (prior : List (Neighbor R.F)) (sort : Bool) :
    (∀ a ∈ T.searchRadius sorter q r prior sort, a.index < n ∧ a.distance = dist a.index ∧ a.distance < r) ∧
    ∀ i < n, dist i < r → hi * (dist i).1 < lo * r.1 →
      ⟨i, dist i⟩ ∈ T.searchRadius sorter q r prior sort := by
  obtain ⟨vis, skip, hp, he, hk⟩ := hE _ (radiusVisitor r)
    (fun _ => True) (radiusInit prior)
    (fun s i _ hs => shrinks_radius (fun i => dist i) r s i trivial hs) trivial
  rw [radius_visitAll] at he
  have hmem := perm_range_mem hp
  have hperm : (T.searchRadius sorter q r prior sort).Perm
      (T.searchNearest q (radiusVisitor r) (radiusInit prior)) := by
    unfold KdTree.searchRadius
    cases sort with
    | false => exact List.Perm.refl _
    | true => exact sorter.sort_perm _ _ strictWeak_neighborLt
  have hrmem : ∀ a, a ∈ T.searchRadius sorter q r prior sort ↔
      (∃ i ∈ vis, a = ⟨i, dist i⟩) ∧ a.distance < r := by
    intro a
    rw [hperm.mem_iff, he]
    simp only [radiusInit, List.nil_append, List.mem_filter, List.mem_map, decide_eq_true_eq]
    constructor
    · rintro ⟨⟨i, hi, rfl⟩, h2⟩; exact ⟨⟨i, hi, rfl⟩, h2⟩
    · rintro ⟨⟨i, hi, rfl⟩, h2⟩; exact ⟨⟨i, hi, rfl⟩, h2⟩
  refine ⟨?_, ?_⟩
  · intro a ha
    obtain ⟨⟨i, hi, rfl⟩, h2⟩ := (hrmem a).1 ha
    exact ⟨(hmem i).2 (Or.inl hi), rfl, h2⟩
  · intro i hi h1 h2
    rw [hrmem]
    refine ⟨⟨i, ?_, rfl⟩, h1⟩
    rcases (hmem i).1 hi with h3 | h3
    · exact h3
    · have := hk i h3
      change _ * r.1 ≤ _ at this
      exact absurd h2 (not_lt.2 this)

end Nearly

section Error
variable {K : Type} [Field K] [LinearOrder K] [IsStrictOrderedRing K] {R : Rounding K} {d : Nat} {u : K}
  {M : Metric R.F d} {N : Num R.F} {pts : Nat → Pt R.F d} {n : Nat} {o : BuildOpts R.F d} {fuel : Nat}
  {T : KdTree R.F d (Branch1 R.F d)}

/-- Computed distances are not negative. -/
theorem dist_nonneg (hu : R.Error u) (hu0 : 0 ≤ u) (hu1 : u ≤ 1) (hM : AxisMetric M) (q : Pt R.F d)
    (pts : Nat → Pt R.F d) (i : Nat) : 0 ≤ (M.dist q (pts i)).1 := by
  rw [hM.dist_eq]
  refine le_trans ?_ (loopSum_ge hu hu0 hu1 _ fun j => hM.nonneg _)
  exact mul_nonneg (pow_nonneg (by linarith) _) (Finset.sum_nonneg fun j _ => hM.nonneg _)

/-- C46 (partial; missing: exactness, see `c46_false`): with a relative error of at most `u` per operation
and a tree of height `h`, the neighbor found is a point with its computed distance, and its distance
exceeds the smallest computed distance by a factor of at most `(1 + u)^(2h) / (1 - u)^d`. -/
theorem c46_nn_partial (hu : R.Error u) (hu0 : 0 ≤ u) (hu1 : u ≤ 1) (hM : AxisMetric M)
    (h : KdTree.make (euclideanTag R.F d) M N pts n o fuel = .ok T) (hR : Representable N pts n o)
    (hn : 0 < n) (q : Pt R.F d)
    (hbig : ∀ i < n, (1 + u) ^ (2 * Spec.height T.data.root) * (M.dist q (pts i)).1 < (1 - u) ^ d * N.big.1)
    (nn : Neighbor R.F) :
    ∃ i < n, T.searchNn q nn = ⟨i, M.dist q (pts i)⟩ ∧
      ∀ j < n, (1 - u) ^ d * (M.dist q (pts i)).1 ≤
        (1 + u) ^ (2 * Spec.height T.data.root) * (M.dist q (pts j)).1 :=
  nn_of_nearly (nearlyExact_axis hu hu0 hu1 hM h hR hn q) (KdTree.make_ok h).2.2.1
    (pow_nonneg (by linarith) _) (pow_le_one₀ (by linarith) (by linarith)) (one_le_pow₀ (by linarith))
    (dist_nonneg hu hu0 hu1 hM q pts) hn hbig nn

/-- C46 (partial, k nearest neighbors): `min k n` different points with their computed distances in
ascending order, and the distance of none of them exceeds the computed distance of a point that was left out
by more than that factor. -/
theorem c46_knn_partial (hu : R.Error u) (hu0 : 0 ≤ u) (hu1 : u ≤ 1) (hM : AxisMetric M)
    (h : KdTree.make (euclideanTag R.F d) M N pts n o fuel = .ok T) (hR : Representable N pts n o)
    (hn : 0 < n) (q : Pt R.F d)
    (hbig : ∀ i < n, (1 + u) ^ (2 * Spec.height T.data.root) * (M.dist q (pts i)).1 < (1 - u) ^ d * N.big.1)
    (k : Nat) (hk0 : 0 < k) (prior : List (Neighbor R.F)) :
    ∃ out rest, T.searchKnn q k prior = .ok out ∧ out.length = min k n ∧
      (out.Pairwise fun a b => a.distance ≤ b.distance) ∧
      (out ++ rest).Perm ((List.range n).map fun i => ⟨i, M.dist q (pts i)⟩) ∧
      ∀ a ∈ out, ∀ b ∈ rest, (1 - u) ^ d * a.distance.1 ≤
        (1 + u) ^ (2 * Spec.height T.data.root) * b.distance.1 :=
  knn_of_nearly (nearlyExact_axis hu hu0 hu1 hM h hR hn q) (KdTree.make_ok h).2.2.1 (KdTree.make_ok h).2.2.2.2.1
    (pow_nonneg (by linarith) _) (pow_le_one₀ (by linarith) (by linarith)) (one_le_pow₀ (by linarith))
    (dist_nonneg hu hu0 hu1 hM q pts) hn hbig k hk0 prior

/-- C46 (partial, radius search): everything returned is genuine and closer than the radius, and every
point is returned whose computed distance is smaller than the radius by that factor. -/
theorem c46_radius_partial (hu : R.Error u) (hu0 : 0 ≤ u) (hu1 : u ≤ 1) (hM : AxisMetric M)
    (h : KdTree.make (euclideanTag R.F d) M N pts n o fuel = .ok T) (hR : Representable N pts n o)
    (hn : 0 < n) (q : Pt R.F d) (sorter : StdSort (Neighbor R.F)) (r : R.F) (prior : List (Neighbor R.F))
    (sort : Bool) :
    (∀ a ∈ T.searchRadius sorter q r prior sort, a.index < n ∧ a.distance = M.dist q (pts a.index) ∧
      a.distance < r) ∧
    ∀ i < n, M.dist q (pts i) < r →
      (1 + u) ^ (2 * Spec.height T.data.root) * (M.dist q (pts i)).1 < (1 - u) ^ d * r.1 →
      ⟨i, M.dist q (pts i)⟩ ∈ T.searchRadius sorter q r prior sort :=
  radius_of_nearly (nearlyExact_axis hu hu0 hu1 hM h hR hn q) sorter r prior sort

end Error

/-- C46 (partial) for `float`- and `double`-like numbers with `p + 1` significant bits and both metrics of
the library: the relative error per operation is `2^-(p+1)`. -/
theorem c46_ieee_partial {p d : Nat} {e : ℤ} {M : Metric (ieee p e).F d}
    (hM : M = metricL1 (ieee p e).F d ∨ M = metricL2Sq (ieee p e).F d) {N : Num (ieee p e).F}
    {pts : Nat → Pt (ieee p e).F d} {n : Nat} {o : BuildOpts (ieee p e).F d} {fuel : Nat}
    {T : KdTree (ieee p e).F d (Branch1 (ieee p e).F d)}
    (h : KdTree.make (euclideanTag (ieee p e).F d) M N pts n o fuel = .ok T) (hR : Representable N pts n o)
    (hn : 0 < n) (q : Pt (ieee p e).F d)
    (hbig : ∀ i < n, (1 + 1 / 2 ^ (p + 1)) ^ (2 * Spec.height T.data.root) * (M.dist q (pts i)).1 <
      (1 - 1 / 2 ^ (p + 1)) ^ d * N.big.1) (nn : Neighbor (ieee p e).F) :
    ∃ i < n, T.searchNn q nn = ⟨i, M.dist q (pts i)⟩ ∧
      ∀ j < n, (1 - 1 / 2 ^ (p + 1)) ^ d * (M.dist q (pts i)).1 ≤
        (1 + 1 / 2 ^ (p + 1)) ^ (2 * Spec.height T.data.root) * (M.dist q (pts j)).1 := by
  have hA : AxisMetric M := by
    rcases hM with rfl | rfl
    · exact axis_l1 (ieee p e).laws
    · exact axis_l2Sq (ieee p e).laws (ieee p e).squareLaws
  have h1 : (1 : ℚ) / 2 ^ (p + 1) ≤ 1 := by
    rw [div_le_one (by positivity)]
    exact one_le_pow₀ (by norm_num)
  exact c46_nn_partial (ieee_relative p e) (by positivity) h1 hA h hR hn q hbig nn

/-! ## Examples -/

theorem nearCircle_representable : Representable f32Num nearCircle 5 (Ref.optsSliding F32 2) where
  num := by decide +kernel
  points := by
    have : ∀ i < 5, ∀ j, f32Num.low ≤ nearCircle i j ∧ nearCircle i j ≤ f32Num.big := by decide +kernel
    exact this
  bounds := trivial
  mid h := by simp [Ref.optsSliding] at h

/-- The error bound on the five points of `c46_false`, where the search is wrong: the tree has height 3. -/
example : ∃ T i, KdTree.make (euclideanTag F32 2) (metricL2Sq F32 2) f32Num nearCircle 5
    (Ref.optsSliding F32 2) 10 = .ok T ∧ T.searchNn ![0, 0] ⟨0, 0⟩ =
      ⟨i, (metricL2Sq F32 2).dist ![0, 0] (nearCircle i)⟩ ∧
    ∀ j < 5, (1 - 1 / 2 ^ 24) ^ 2 * ((metricL2Sq F32 2).dist ![0, 0] (nearCircle i)).1 ≤
      (1 + 1 / 2 ^ 24) ^ 6 * ((metricL2Sq F32 2).dist ![0, 0] (nearCircle j)).1 := by
  obtain ⟨T, h1, h2⟩ := Outcome.exists_of_check (x := KdTree.make (euclideanTag F32 2) (metricL2Sq F32 2)
    f32Num nearCircle 5 (Ref.optsSliding F32 2) 10)
    (p := fun T => decide (Spec.height T.data.root = 3)) (by decide +kernel)
  have h2 := of_decide_eq_true h2
  obtain ⟨i, _, h3, h4⟩ := c46_ieee_partial (p := 23) (Or.inr rfl) h1 nearCircle_representable (by decide)
    ![0, 0] (by rw [h2]; decide +kernel) ⟨0, 0⟩
  rw [h2] at h4
  exact ⟨T, i, h1, h3, h4⟩

/-- Three points on the line, single precision. -/
def line3 : Nat → Pt F32 1
  | 0 => ![f32 16777215]
  | 1 => ![f32 3]
  | _ => ![f32 33554430]

theorem line3_representable : Representable f32Num line3 3 (Ref.optsSliding F32 1) where
  num := by decide +kernel
  points := by
    have : ∀ i < 3, ∀ j, f32Num.low ≤ line3 i j ∧ line3 i j ≤ f32Num.big := by decide +kernel
    exact this
  bounds := trivial
  mid h := by simp [Ref.optsSliding] at h

/-- C45 on three points: `33554430 - 3` is not representable, the distance is a rounded one. -/
example : ∃ T, KdTree.make (euclideanTag F32 1) (metricL1 F32 1) f32Num line3 3 (Ref.optsSliding F32 1) 10
      = .ok T ∧ IsNN 3 (fun i => (metricL1 F32 1).dist ![f32 3] (line3 i)) (T.searchNn ![f32 3] ⟨0, 0⟩) ∧
      roundedL1 (ieee 23 (-149)) ![f32 3] (line3 2) = 33554428 := by
  obtain ⟨T, h1, h2⟩ := Outcome.exists_of_check (x := KdTree.make (euclideanTag F32 1) (metricL1 F32 1)
    f32Num line3 3 (Ref.optsSliding F32 1) 10) (p := fun _ => true) (by decide +kernel)
  obtain ⟨dist, hd, h3, _⟩ := c45_l1 h1 line3_representable (by decide) ![f32 3] (by decide +kernel)
  refine ⟨T, h1, ?_, by decide +kernel⟩
  have : (fun i => (metricL1 F32 1).dist ![f32 3] (line3 i)) = dist := by
    funext i
    exact Subtype.ext ((dist_l1_val _ _ _).trans (hd i).symm)
  rw [this]
  exact h3 _

end Pico.Props
