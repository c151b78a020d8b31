import Verif.Props.TopoError

/-!
# C92: the approximate searches in floating point arithmetic

The visitors store `dst * (1 / e)`, computed with two roundings.
-/

set_option linter.unusedSectionVars false

namespace Pico.Props

open Pico Spec

section Nearly
variable {K : Type} [Field K] [LinearOrder K] [IsStrictOrderedRing K] {R : Rounding K} {d : Nat} {lo hi : K}
  {β : Type} {N : Num R.F} {n : Nat} {T : KdTree R.F d β} {q : Pt R.F d} {dist : Nat → R.F} {e : R.F}

/-- What the approximate searches with ratio `e` give, up to rounding. `dist i * (1 / e)` is the stored, computed
distance. -/
structure ApproxUpTo (T : KdTree R.F d β) (q : Pt R.F d) (n : Nat) (dist : Nat → R.F) (e : R.F) (lo hi big : K) :
    Prop where
  /-- The stored distance exceeds no distance by more than the rounding factor. -/
  nn : (∀ i < n, hi * (dist i).1 < lo * big) → ∀ prior, ∃ i < n,
    T.searchNnApprox q e prior = ⟨i, dist i * (1 / e)⟩ ∧
    ∀ j < n, lo * (dist i * (1 / e)).1 ≤ hi * (dist j).1
  /-- The stored distances are sorted, and exceed no distance of a point left out by more than that factor. -/
  knn : (∀ i < n, hi * (dist i).1 < lo * big) → ∀ k prior, 0 < k → ∃ out rest : List Nat,
    T.searchKnnApprox q k e prior = .ok (out.map fun i => ⟨i, dist i * (1 / e)⟩) ∧ out.length = min k n ∧
    (out.Pairwise fun i j => dist i * (1 / e) ≤ dist j * (1 / e)) ∧ (out ++ rest).Perm (List.range n) ∧
    ∀ i ∈ out, ∀ j ∈ rest, lo * (dist i * (1 / e)).1 ≤ hi * (dist j).1
  /-- Everything returned is nearer than the radius, without any rounding factor. -/
  sound : ∀ sorter r prior sort, ∀ a ∈ T.searchRadiusApprox sorter q r e prior sort,
    a.index < n ∧ a.distance = dist a.index * (1 / e) ∧ dist a.index < r
  /-- Points are returned that are nearer than the stored radius up to that factor. -/
  complete : ∀ sorter r prior sort, ∀ i < n, dist i * (1 / e) < r * (1 / e) →
    hi * (dist i).1 < lo * (r * (1 / e)).1 →
    ⟨i, dist i * (1 / e)⟩ ∈ T.searchRadiusApprox sorter q r e prior sort

theorem ratio_le (h1 : R.rd 1 = 1) (he : 1 ≤ e.1) : 0 ≤ (1 / e : R.F).1 ∧ (1 / e : R.F).1 ≤ 1 := by
  have e1 : (1 / e : R.F).1 = R.rd (R.rd 1 / e.1) := rfl
  have he0 : 0 < e.1 := lt_of_lt_of_le one_pos he
  rw [e1, h1]
  constructor
  · have := R.mono 0 (1 / e.1) (by positivity)
    rwa [R.rd_zero] at this
  · have := R.mono (1 / e.1) 1 ((div_le_one he0).2 he)
    rwa [h1] at this

theorem stored_le (h1 : R.rd 1 = 1) (he : 1 ≤ e.1) {x : R.F} (hx : 0 ≤ x.1) : x * (1 / e) ≤ x := by
  rw [R.le_iff, R.val_mul]
  have := R.mono _ _ (mul_le_of_le_one_right hx (ratio_le h1 he).2)
  rwa [x.2] at this

theorem approx_of_nearly (hE : NearlyExact T q dist n lo hi) (h3 : T.num = N) (h5 : T.n = n) (hpu0 : 0 ≤ lo)
    (hpu : lo ≤ 1) (hone : 1 ≤ hi) (hd0 : ∀ i, 0 ≤ (dist i).1) (hn : 0 < n) (h1 : R.rd 1 = 1) (he : 1 ≤ e.1) :
    ApproxUpTo T q n dist e lo hi N.big.1 := by
  have hle : ∀ i, (dist i * (1 / e)).1 ≤ (dist i).1 := fun i => (R.le_iff _ _).1 (stored_le h1 he (hd0 i))
  have hvis : ∀ (x : K) (j : Nat), x ≤ (dist j * (1 / e)).1 → lo * x ≤ hi * (dist j).1 := by
    intro x j hx
    exact (mul_le_mul_of_nonneg_left (hx.trans (hle j)) hpu0).trans
      ((mul_le_of_le_one_left (hd0 j) hpu).trans (le_mul_of_one_le_left (hd0 j) hone))
  refine ⟨?_, ?_, ?_, ?_⟩
  · intro hbig nn
    have hb0 : ∀ i < n, dist i * (1 / e) < N.big := fun i hi =>
      lt_of_le_of_lt (stored_le h1 he (hd0 i)) (lt_big_of_nearly hpu0 hpu hone hd0 hbig i hi)
    obtain ⟨vis, skip, hp, hs, hk⟩ := hE _ (approxNnVisitor e) (fun _ => True) (nnInit T.num nn)
      (fun s i _ hs => shrinks_nn (fun i => dist i * (1 / e)) s i trivial hs) trivial
    have hs : T.searchNearest q (approxNnVisitor e) (nnInit T.num nn) =
      visitAll nnVisitor (fun i => dist i * (1 / e)) vis (nnInit T.num nn) := hs
    unfold KdTree.searchNnApprox
    rw [hs] at hk ⊢
    have hmem := perm_range_mem hp
    rcases nn_visitAll (fun i => dist i * (1 / e)) vis (nnInit T.num nn) with ⟨g1, g2⟩ | ⟨i, hi, g1, g2, g3⟩
    · exfalso
      rw [g1] at hk
      rcases (hmem 0).1 hn with h0 | h0
      · have := g2 0 h0
        change T.num.big ≤ _ at this
        rw [h3] at this
        exact absurd (hb0 0 hn) (not_lt.2 this)
      · have := hk 0 h0
        change _ * T.num.big.1 ≤ _ at this
        rw [h3] at this
        exact absurd (hbig 0 hn) (not_lt.2 this)
    · rw [g1] at hk ⊢
      refine ⟨i, (hmem i).2 (Or.inl hi), rfl, ?_⟩
      intro j hj
      rcases (hmem j).1 hj with hj' | hj'
      · exact hvis _ j ((R.le_iff _ _).1 (g3 j hj'))
      · exact hk j hj'
  · intro hbig k prior hk0
    have hb0 : ∀ i < n, dist i * (1 / e) < N.big := fun i hi =>
      lt_of_le_of_lt (stored_le h1 he (hd0 i)) (lt_big_of_nearly hpu0 hpu hone hd0 hbig i hi)
    set buf := KdTree.resize (min k T.n) prior with hbuf
    have hlenb : buf.length = min k n := by rw [hbuf, resize_length, h5]
    obtain ⟨init, hi, hlen, hlast, -, -, hinv⟩ := knnInit_inv N buf (by omega)
    obtain ⟨vis, skip, hp, hs, hk⟩ := hE _ (approxKnnVisitor N e)
      (fun s => ∃ seen L R, KnnInv N init seen s L R) ⟨init, 0⟩
      (fun s i hi hs => shrinks_knn N (fun i => dist i * (1 / e)) init hlast s i (hb0 i hi) hs)
      ⟨_, _, _, hinv⟩
    have hs : T.searchNearest q (approxKnnVisitor N e) ⟨init, 0⟩ =
      visitAll (knnVisitor N) (fun i => dist i * (1 / e)) vis ⟨init, 0⟩ := hs
    have hmem := perm_range_mem hp
    obtain ⟨L, R', hL⟩ := knn_visitAll N (fun i => dist i * (1 / e)) init hlast vis
      (fun i hi => hb0 i ((hmem i).2 (Or.inl hi))) hinv
    rw [List.nil_append] at hL
    have hplen : vis.length + skip.length = n := by
      have := hp.length_eq
      simpa using this
    have hLR : L.length + R'.length = vis.length := by
      have := hL.perm.length_eq
      simpa using this
    rw [hs] at hk
    change ∀ i ∈ skip, _ * (knnMax N (visitAll (knnVisitor N) (fun i => dist i * (1 / e)) vis ⟨init, 0⟩)).1 ≤ _
      at hk
    have hfull : L.length = init.length := by
      by_contra hc
      have hlt : L.length < init.length := lt_of_le_of_ne hL.le hc
      have hR' : R' = [] := by
        by_contra hc'; exact absurd (hL.full hc') hc
      have hskip : skip = [] := by
        refine List.eq_nil_iff_forall_not_mem.2 fun x hx => ?_
        have := hk x hx
        rw [knnMax_not_full hL hlast hlt] at this
        exact absurd (hbig x ((hmem x).2 (Or.inr hx))) (not_lt.2 this)
      subst hR' hskip
      simp only [List.length_nil, Nat.add_zero] at hplen hLR
      omega
    have hgen : ∀ a ∈ L ++ R', a = ⟨a.index, dist a.index * (1 / e)⟩ := by
      intro a ha
      obtain ⟨i, _, rfl⟩ := List.mem_map.1 (hL.perm.subset ha)
      rfl
    have hmapL : (L.map Neighbor.index).map (fun i => (⟨i, dist i * (1 / e)⟩ : Neighbor R.F)) = L := by
      rw [List.map_map]
      conv_rhs => rw [← List.map_id L]
      refine List.map_congr_left fun a ha => ?_
      exact (hgen a (List.mem_append_left _ ha)).symm
    refine ⟨L.map Neighbor.index, R'.map Neighbor.index ++ skip, ?_, ?_, ?_, ?_, ?_⟩
    · rw [hmapL]
      unfold KdTree.searchKnnApprox KdTree.searchKnnApproxRange
      rw [← hbuf, h3, hi]
      simp only [Outcome.bind, Outcome.ok.injEq]
      rw [hs, hL.buf, hfull, List.drop_length, List.append_nil]
    · rw [List.length_map]
      omega
    · rw [List.pairwise_map]
      refine hL.sorted.imp_of_mem fun {a b} ha hb hab => ?_
      rw [hgen a (List.mem_append_left _ ha), hgen b (List.mem_append_left _ hb)] at hab
      exact hab
    · rw [← List.append_assoc, ← List.map_append]
      refine ((hL.perm.map Neighbor.index).append_right skip).trans ?_
      rw [List.map_map]
      have : (Neighbor.index ∘ fun i => (⟨i, dist i * (1 / e)⟩ : Neighbor R.F)) = id := rfl
      rw [this, List.map_id]
      exact hp
    · obtain ⟨L0, z, hz, hmax⟩ := knnMax_full hL hfull (by omega)
      rw [hmax] at hk
      have hsorted := hL.sorted
      rw [hz, List.pairwise_append] at hsorted
      have hlez : ∀ a ∈ L, a.distance ≤ z.distance := by
        intro a ha
        rw [hz] at ha
        rcases List.mem_append.1 ha with ha | ha
        · exact hsorted.2.2 a ha z (by simp)
        · simp only [List.mem_singleton] at ha; rw [ha]
      intro i hi' j hj
      obtain ⟨a, ha, rfl⟩ := List.mem_map.1 hi'
      have ea : a.distance = dist a.index * (1 / e) := congrArg Neighbor.distance (hgen a (List.mem_append_left _ ha))
      rw [← ea]
      rcases List.mem_append.1 hj with hj | hj
      · obtain ⟨b, hb, rfl⟩ := List.mem_map.1 hj
        have eb : b.distance = dist b.index * (1 / e) :=
          congrArg Neighbor.distance (hgen b (List.mem_append_right _ hb))
        refine hvis _ _ ?_
        rw [← eb]
        exact hL.rejected a ha b hb
      · exact (mul_le_mul_of_nonneg_left ((R.le_iff _ _).1 (hlez a ha)) hpu0).trans (hk j hj)
  all_goals
    intro sorter r prior sort
    obtain ⟨vis, skip, hp, hs, hk⟩ := hE _ (approxRadiusVisitor e r) (fun _ => True) (radiusInit prior)
      (fun s i _ hs => shrinks_radius (fun i => dist i * (1 / e)) (r * (1 / e)) s i trivial hs) trivial
    have hs : T.searchNearest q (approxRadiusVisitor e r) (radiusInit prior) =
      visitAll (radiusVisitor (r * (1 / e))) (fun i => dist i * (1 / e)) vis (radiusInit prior) := hs
    rw [radius_visitAll] at hs
    have hmem := perm_range_mem hp
    have hperm : (T.searchRadiusApprox sorter q r e prior sort).Perm
        (T.searchNearest q (approxRadiusVisitor e r) (radiusInit prior)) := by
      unfold KdTree.searchRadiusApprox
      cases sort with
      | false => exact List.Perm.refl _
      | true => exact sorter.sort_perm _ _ strictWeak_neighborLt
    have hrmem : ∀ a, a ∈ T.searchRadiusApprox sorter q r e prior sort ↔
        (∃ i ∈ vis, a = ⟨i, dist i * (1 / e)⟩) ∧ a.distance < r * (1 / e) := by
      intro a
      rw [hperm.mem_iff, hs]
      simp only [radiusInit, List.nil_append, List.mem_filter, List.mem_map, decide_eq_true_eq]
      constructor
      · rintro ⟨⟨i, hi, rfl⟩, h2⟩; exact ⟨⟨i, hi, rfl⟩, h2⟩
      · rintro ⟨⟨i, hi, rfl⟩, h2⟩; exact ⟨⟨i, hi, rfl⟩, h2⟩
  · intro a ha
    obtain ⟨⟨i, hi, rfl⟩, h2⟩ := (hrmem a).1 ha
    refine ⟨(hmem i).2 (Or.inl hi), rfl, ?_⟩
    by_contra hc
    push Not at hc
    have h4 : r.1 * (1 / e : R.F).1 ≤ (dist i).1 * (1 / e : R.F).1 :=
      mul_le_mul_of_nonneg_right ((R.le_iff _ _).1 hc) (ratio_le h1 he).1
    have h5 := R.mono _ _ h4
    rw [← R.val_mul, ← R.val_mul, ← R.le_iff] at h5
    exact absurd h2 (not_lt.2 h5)
  · intro i hi g1 g2
    rw [hrmem]
    refine ⟨⟨i, ?_, rfl⟩, g1⟩
    rcases (hmem i).1 hi with g3 | g3
    · exact g3
    · have := hk i g3
      change _ * (r * (1 / e)).1 ≤ _ at this
      exact absurd g2 (not_lt.2 this)

end Nearly

section Instances
variable {K : Type} [Field K] [LinearOrder K] [IsStrictOrderedRing K] {R : Rounding K} {d : Nat} {u : K}
  {M : Metric R.F d} {N : Num R.F} {pts : Nat → Pt R.F d} {n : Nat} {o : BuildOpts R.F d} {fuel : Nat}
  {q : Pt R.F d} {e : R.F}

/-- C92 for `metric_l1` and `metric_l2_squared` (`AxisMetric`): the approximate searches keep their promise up to the
factor `(1 + u)^(2h) / (1 - u)^d` of C46. -/
theorem c92_euclidean (hu : R.Error u) (hu0 : 0 ≤ u) (hu1 : u ≤ 1) (hM : AxisMetric M)
    {T : KdTree R.F d (Branch1 R.F d)} (h : KdTree.make (euclideanTag R.F d) M N pts n o fuel = .ok T)
    (hR : Representable N pts n o) (hn : 0 < n) (h1 : R.rd 1 = 1) (he : 1 ≤ e.1) :
    ApproxUpTo T q n (fun i => M.dist q (pts i)) e ((1 - u) ^ d) ((1 + u) ^ (2 * Spec.height T.data.root))
      N.big.1 :=
  approx_of_nearly (nearlyExact_axis hu hu0 hu1 hM h hR hn q) (KdTree.make_ok h).2.2.1
    (KdTree.make_ok h).2.2.2.2.1 (pow_nonneg (by linarith) _) (pow_le_one₀ (by linarith) (by linarith))
    (one_le_pow₀ (by linarith)) (dist_nonneg hu hu0 hu1 hM q pts) hn h1 he

/-- C92 for SE(2) and tori. -/
theorem c92_topological (hu : R.Error u) (hu0 : 0 ≤ u) (hu1 : u ≤ 1) (hM : SquareSum M)
    {T : KdTree R.F d (Branch2 R.F d)} (h : KdTree.make (topologicalTag R.F d) M N pts n o fuel = .ok T)
    (hR : Representable N pts n o) (hn : 0 < n) (hc : CircleOk M.space pts n o q) (h1 : R.rd 1 = 1)
    (he : 1 ≤ e.1) :
    ApproxUpTo T q n (fun i => M.dist q (pts i)) e ((1 - u) ^ d) ((1 + u) ^ (2 * Spec.height T.data.root))
      N.big.1 :=
  approx_of_nearly (nearlyExact_topo hu hu0 hu1 hM h hR hn q hc) (KdTree.make_ok h).2.2.1
    (KdTree.make_ok h).2.2.2.2.1 (pow_nonneg (by linarith) _) (pow_le_one₀ (by linarith) (by linarith))
    (one_le_pow₀ (by linarith)) (hM.dist_nonneg hu hu0 hu1 q pts) hn h1 he

/-- C92 (ratio): if the two operations of the scaling have relative errors of at most `u`, then the distance of the
neighbor found exceeds no other by more than `e / (1 - u)^2` times that factor. -/
theorem c92_ratio {β : Type} {T : KdTree R.F d β} {dist : Nat → R.F} {lo hi big : K}
    (hA : ApproxUpTo T q n dist e lo hi big) (hlo : 0 ≤ lo) (hu1 : u ≤ 1) (he : 1 ≤ e.1)
    (hd0 : ∀ i, 0 ≤ (dist i).1) (hbig : ∀ i < n, hi * (dist i).1 < lo * big)
    (hdiv : |(1 / e : R.F).1 - 1 / e.1| ≤ u * (1 / e.1))
    (hmul : ∀ i < n, |(dist i * (1 / e)).1 - (dist i).1 * (1 / e : R.F).1| ≤ u * ((dist i).1 * (1 / e : R.F).1))
    (prior : Neighbor R.F) :
    (T.searchNnApprox q e prior).index < n ∧
    ∀ j < n, lo * (1 - u) ^ 2 * (dist (T.searchNnApprox q e prior).index).1 ≤ e.1 * hi * (dist j).1 := by
  obtain ⟨i, hi', h1, h2⟩ := hA.nn hbig prior
  rw [h1]
  refine ⟨hi', fun j hj => ?_⟩
  have he0 : 0 < e.1 := lt_of_lt_of_le one_pos he
  have h3 := (abs_le.1 (hmul i hi')).1
  have h4 := (abs_le.1 hdiv).1
  have h5 : (1 - u) * ((dist i).1 * ((1 - u) * (1 / e.1))) ≤ (dist i * (1 / e)).1 := by
    have h6 : (1 - u) * (1 / e.1) ≤ (1 / e : R.F).1 := by linarith
    have h7 := mul_le_mul_of_nonneg_left h6 (hd0 i)
    have h8 := mul_le_mul_of_nonneg_left h7 (sub_nonneg.2 hu1)
    linarith
  have h9 := (mul_le_mul_of_nonneg_left h5 hlo).trans (h2 j hj)
  have h10 := mul_le_mul_of_nonneg_left h9 he0.le
  have h11 : e.1 * (lo * ((1 - u) * ((dist i).1 * ((1 - u) * (1 / e.1))))) = lo * (1 - u) ^ 2 * (dist i).1 := by
    field_simp
  rw [h11] at h10
  linarith

end Instances

/-- C92 for `float`- and `double`-like numbers: both roundings of the scaling are accurate unless they underflow. -/
theorem c92_ieee {p d : Nat} {e : ℤ} {M : Metric (ieee p e).F d}
    (hM : M = metricL1 (ieee p e).F d ∨ M = metricL2Sq (ieee p e).F d) {N : Num (ieee p e).F}
    {pts : Nat → Pt (ieee p e).F d} {n : Nat} {o : BuildOpts (ieee p e).F d} {fuel : Nat}
    {T : KdTree (ieee p e).F d (Branch1 (ieee p e).F d)}
    (h : KdTree.make (euclideanTag (ieee p e).F d) M N pts n o fuel = .ok T) (hR : Representable N pts n o)
    (hn : 0 < n) (q : Pt (ieee p e).F d) (h1 : (ieee p e).rd 1 = 1) (ratio : (ieee p e).F) (he : 1 ≤ ratio.1)
    (hbig : ∀ i < n, (1 + 1 / 2 ^ (p + 1)) ^ (2 * Spec.height T.data.root) * (M.dist q (pts i)).1 <
      (1 - 1 / 2 ^ (p + 1)) ^ d * N.big.1)
    (hdiv : 2 ^ (e + p) ≤ 1 / ratio.1)
    (hmul : ∀ i < n, (M.dist q (pts i)).1 = 0 ∨ 2 ^ (e + p) ≤ (M.dist q (pts i)).1 * (1 / ratio : (ieee p e).F).1)
    (prior : Neighbor (ieee p e).F) :
    (T.searchNnApprox q ratio prior).index < n ∧
    ∀ j < n, (1 - 1 / 2 ^ (p + 1)) ^ (d + 2) * (M.dist q (pts (T.searchNnApprox q ratio prior).index)).1 ≤
      ratio.1 * (1 + 1 / 2 ^ (p + 1)) ^ (2 * Spec.height T.data.root) * (M.dist q (pts j)).1 := by
  have hA : AxisMetric M := by
    rcases hM with rfl | rfl
    · exact axis_l1 (ieee p e).laws
    · exact axis_l2Sq (ieee p e).laws (ieee p e).squareLaws
  have hu1 : (1 : ℚ) / 2 ^ (p + 1) ≤ 1 := by
    rw [div_le_one (by positivity)]
    exact one_le_pow₀ (by norm_num)
  have hu := ieee_relative p e
  have hnorm : ∀ x : ℚ, 2 ^ (e + p) ≤ x → |(ieee p e).rd x - x| ≤ 1 / 2 ^ (p + 1) * x := by
    intro x hx
    have h0 : 0 < x := lt_of_lt_of_le (by positivity) hx
    have := roundBits_relative p x
    rw [roundBits_of_pos h0, abs_of_pos h0] at this
    change |roundTiny p e x - x| ≤ _
    rw [roundTiny_of_nonneg h0.le]
    unfold roundTinyPos
    rw [if_pos hx]
    exact this
  have := c92_ratio (c92_euclidean (q := q) (e := ratio) hu (by positivity) hu1 hA h hR hn h1 he)
    (pow_nonneg (by linarith) _) hu1 he (dist_nonneg hu (by positivity) hu1 hA q pts) hbig
    (by
      have e1 : (1 / ratio : (ieee p e).F).1 = (ieee p e).rd ((ieee p e).rd 1 / ratio.1) := rfl
      rw [e1, h1]
      exact hnorm _ hdiv)
    (by
      intro i hi
      rw [(ieee p e).val_mul]
      rcases hmul i hi with h0 | h0
      · rw [h0, zero_mul, (ieee p e).rd_zero]
        simp
      · exact hnorm _ h0) prior
  refine ⟨this.1, fun j hj => ?_⟩
  have h2 := this.2 j hj
  rwa [← pow_add] at h2

/-! ## Examples -/

/-- The points of `c46_false` with the ratio 3/2: the distance exceeds the smallest one by at most
`3/2 (1 + 2^-24)^6 / (1 - 2^-24)^4`. -/
example : ∃ T, KdTree.make (euclideanTag F32 2) (metricL2Sq F32 2) f32Num nearCircle 5
    (Ref.optsSliding F32 2) 10 = .ok T ∧ ∀ j < 5, (1 - 1 / 2 ^ 24) ^ 4 *
      ((metricL2Sq F32 2).dist ![0, 0] (nearCircle (T.searchNnApprox ![0, 0] ((ieee 23 (-149)).ofK (3 / 2)) ⟨0, 0⟩).index)).1 ≤
      3 / 2 * (1 + 1 / 2 ^ 24) ^ 6 * ((metricL2Sq F32 2).dist ![0, 0] (nearCircle j)).1 := by
  obtain ⟨T, h1, h2⟩ := Outcome.exists_of_check (x := KdTree.make (euclideanTag F32 2) (metricL2Sq F32 2)
    f32Num nearCircle 5 (Ref.optsSliding F32 2) 10)
    (p := fun T => decide (Spec.height T.data.root = 3)) (by decide +kernel)
  have h2 := of_decide_eq_true h2
  have h3 := (c92_ieee (p := 23) (Or.inr rfl) h1 nearCircle_representable (by decide) ![0, 0] (by decide +kernel)
    ((ieee 23 (-149)).ofK (3 / 2)) (by decide +kernel) (by rw [h2]; decide +kernel) (by decide +kernel) (by decide +kernel)
    ⟨0, 0⟩).2
  rw [h2] at h3
  have h4 : ((ieee 23 (-149)).ofK (3 / 2)).1 = 3 / 2 := by decide +kernel
  rw [h4] at h3
  exact ⟨T, h1, h3⟩

example : ∃ T, KdTree.make (topologicalTag F32 3) (metricSE2Sq F32) f32Num poses4 4 (Ref.optsSliding F32 3) 10
      = .ok T ∧ ApproxUpTo T ![(ieee 23 (-149)).ofK 5, 0, 0] 4
        (fun i => (metricSE2Sq F32).dist ![(ieee 23 (-149)).ofK 5, 0, 0] (poses4 i)) ((ieee 23 (-149)).ofK (3 / 2))
        ((1 - 1 / 2 ^ 24) ^ 3) ((1 + 1 / 2 ^ 24) ^ (2 * Spec.height T.data.root)) f32Num.big.1 := by
  obtain ⟨T, h1, _⟩ := Outcome.exists_of_check (x := KdTree.make (topologicalTag F32 3) (metricSE2Sq F32)
    f32Num poses4 4 (Ref.optsSliding F32 3) 10) (p := fun _ => true) (by decide +kernel)
  exact ⟨T, h1, c92_topological (ieee_relative 23 (-149)) (by norm_num) (by norm_num) squareSum_se2 h1
    ⟨by decide +kernel, by
      have : ∀ i < 4, ∀ j, f32Num.low ≤ poses4 i j ∧ poses4 i j ≤ f32Num.big := by decide +kernel
      exact this, trivial, fun h => by simp [Ref.optsSliding] at h⟩ (by decide)
    (circleOk_of (by decide +kernel) (by decide +kernel)) (by decide +kernel) (by decide +kernel)⟩

end Pico.Props
