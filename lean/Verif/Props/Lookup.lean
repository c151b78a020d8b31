import Verif.Props.TopoError

/-!
# C90: a stored point is found again, in floating point arithmetic

Rounding can make a search miss the nearest neighbor (`c46_false`).  It never misses a point that equals the query:
the distance to every subtree that holds it is computed as zero.
-/

set_option linter.unusedSectionVars false

namespace Pico.Props

open Pico Spec

section Any
variable {α : Type} [LinearOrder α] [Zero α] [Add α] [Sub α] [Neg α] {d : Nat} {β : Type} {tag : SpaceTag α d β}
  {M : Metric α d} {N : Num α} {pts : Nat → Pt α d} {n : Nat} {o : BuildOpts α d} {fuel : Nat} {T : KdTree α d β}
  {q : Pt α d}

/-- What a search for a stored point finds. -/
structure Found (T : KdTree α d β) (q : Pt α d) (pts : Nat → Pt α d) (n : Nat) (dist : Nat → α) (big : α) :
    Prop where
  /-- The nearest neighbor has distance zero. -/
  nn : ∀ prior, (T.searchNn q prior).index < n ∧ dist (T.searchNn q prior).index = 0 ∧
    (T.searchNn q prior).distance = 0
  /-- Each copy of the query is among the `k` nearest neighbors unless these all have distance zero. -/
  knn : (∀ i < n, dist i < big) → ∀ k prior, 0 < k → ∃ L tail, T.searchKnn q k prior = .ok (L ++ tail) ∧
    (L ++ tail).length = min k n ∧ L.Pairwise (fun a b => a.distance ≤ b.distance) ∧
    (L.map Neighbor.index).Nodup ∧ (∀ a ∈ L, a.index < n ∧ a.distance = dist a.index) ∧
    (∃ a L', L = a :: L' ∧ a.distance = 0) ∧
    ∀ i < n, pts i = q → ⟨i, 0⟩ ∈ L ∨ tail = [] ∧ ∀ a ∈ L, a.distance = 0
  /-- Radius search returns every copy of the query. -/
  radius : ∀ sorter r prior sort, 0 < r → ∀ i < n, pts i = q → ⟨i, 0⟩ ∈ T.searchRadius sorter q r prior sort

/-- Copies of the query are presented to every visitor whose `max()` is not negative. -/
theorem presented (L : RoundedLaws α) (h : KdTree.make tag M N pts n o fuel = .ok T) (hR : Representable N pts n o)
    (hn : 0 < n) (term : Fin d → Nat → α)
    (hg : Guard tag.splitDim (tag.pick M q) T.data.indices term T.data.root)
    (hpick : ∀ data, 0 ≤ (tag.pick M q data).2) (hterm : ∀ i < n, pts i = q → ∀ j, term j i ≤ 0)
    {σ : Type} (V : Visitor α σ) (Inv : σ → Prop) (s : σ)
    (hV : Shrinks V (fun i => M.dist q (pts i)) (· < n) Inv) (hI : Inv s) :
    ∃ vis skip, (vis ++ skip).Perm (List.range n) ∧
      T.searchNearest q V s = visitAll V (fun i => M.dist q (pts i)) vis s ∧
      ∀ i ∈ skip, pts i = q → V.max (T.searchNearest q V s) < 0 := by
  obtain ⟨hperm, _, _, hel⟩ := KdTree.make_built h hR hn
  obtain ⟨h1, h2, h3, h4, h5, _⟩ := KdTree.make_ok h
  have hlt : ∀ i ∈ T.data.root.elems T.data.indices, i < n := by
    intro i hi
    rw [hel] at hi
    exact List.mem_range.1 (hperm.subset hi)
  have hG : ∀ t : Tree β, Guard tag.splitDim (tag.pick M q) T.data.indices term t →
      GuardBy (tag.pick M q) T.data.indices (fun data i => (tag.pick M q data).2 ≤ term (tag.splitDim data) i) t := by
    intro t
    induction t with
    | leaf _ _ => intro _; trivial
    | branch data l r ihl ihr => exact fun hg => ⟨hg.1, ihl hg.2.1, ihr hg.2.2⟩
  obtain ⟨vis, skip, hp, he, hk⟩ := searchNearest_skip T.tag.splitDim (T.tag.pick T.metric q) V
    (fun i => T.metric.dist q (T.pts i)) T.data.indices
    (fun data i => (tag.pick M q data).2 ≤ term (tag.splitDim data) i)
    (fun D off i => pts i = q → D = 0 ∧ ∀ j, off j = 0) (· < n)
    (by
      intro D off i data hi hQ hP e
      obtain ⟨e1, e2⟩ := hP e
      rw [h1, h2]
      have hx : (tag.pick M q data).2 = 0 := le_antisymm (hQ.trans (hterm i hi e _)) (hpick data)
      rw [hx, e1, e2, L.sub_self, L.zero_add]
      refine ⟨rfl, fun j => ?_⟩
      unfold Function.update
      split
      · rename_i hj
        subst hj
        rfl
      · exact e2 j)
    Inv (by rw [h2, h4]; exact hV) T.data.root 0 (fun _ => 0, s) hlt
    (by rw [h1, h2]; exact hG _ hg) (fun i hi _ => ⟨rfl, fun _ => rfl⟩) hI
  rw [hel] at hp
  have he' : T.searchNearest q V s = visitAll V (fun i => M.dist q (pts i)) vis s := by
    unfold KdTree.searchNearest searchNearestRoot
    rw [he, h2, h4]
  refine ⟨vis, skip, hp.trans hperm, he', ?_⟩
  intro i hi e
  obtain ⟨D, off, g1, g2⟩ := hk i hi
  rw [he', ← (g1 e).1]
  rw [h2, h4] at g2
  exact g2

theorem found_of_guard (L : RoundedLaws α) (h : KdTree.make tag M N pts n o fuel = .ok T)
    (hR : Representable N pts n o) (hn : 0 < n) (term : Fin d → Nat → α)
    (hg : Guard tag.splitDim (tag.pick M q) T.data.indices term T.data.root)
    (hpick : ∀ data, 0 ≤ (tag.pick M q data).2) (hterm : ∀ i < n, pts i = q → ∀ j, term j i ≤ 0)
    (hd0 : ∀ x y, 0 ≤ M.dist x y) (hself : M.dist q q = 0) (hbig : 0 < N.big) (hq : ∃ i < n, pts i = q) :
    Found T q pts n (fun i => M.dist q (pts i)) N.big := by
  obtain ⟨i0, hi0, hiq⟩ := hq
  have hzero : ∀ i, pts i = q → M.dist q (pts i) = 0 := fun i e => by rw [e, hself]
  have hT : T.num = N := (KdTree.make_ok h).2.2.1
  have hTn : T.n = n := (KdTree.make_ok h).2.2.2.2.1
  refine ⟨?_, ?_, ?_⟩
  · intro prior
    obtain ⟨vis, skip, hp, he, hk⟩ := presented L h hR hn term hg hpick hterm nnVisitor (fun _ => True)
      (nnInit T.num prior) (fun s i _ hs => shrinks_nn (fun i => M.dist q (pts i)) s i trivial hs) trivial
    have hmem := perm_range_mem hp
    unfold KdTree.searchNn
    rw [he] at hk ⊢
    rcases nn_visitAll (fun i => M.dist q (pts i)) vis (nnInit T.num prior) with ⟨h1, h2⟩ | ⟨i, hi, h1, h2, h3⟩
    · exfalso
      rw [h1] at hk
      rcases (hmem i0).1 hi0 with h0 | h0
      · have := h2 i0 h0
        rw [hzero i0 hiq] at this
        change T.num.big ≤ 0 at this
        rw [hT] at this
        exact absurd hbig (not_lt.2 this)
      · have := hk i0 h0 hiq
        change T.num.big < 0 at this
        rw [hT] at this
        exact absurd hbig (not_lt.2 this.le)
    · rw [h1] at hk ⊢
      have hle : M.dist q (pts i) ≤ 0 := by
        rcases (hmem i0).1 hi0 with h0 | h0
        · have := h3 i0 h0
          rwa [hzero i0 hiq] at this
        · exact (hk i0 h0 hiq).le
      have e := le_antisymm hle (hd0 q (pts i))
      exact ⟨(hmem i).2 (Or.inl hi), e, e⟩
  · intro hb0 k prior hk0
    set buf := KdTree.resize (min k T.n) prior with hbuf
    have hlenb : buf.length = min k n := by rw [hbuf, resize_length, hTn]
    obtain ⟨init, hi, hlen, hlast, -, -, hinv⟩ := knnInit_inv N buf (by omega)
    obtain ⟨vis, skip, hp, he, hk⟩ := presented L h hR hn term hg hpick hterm (knnVisitor N)
      (fun s => ∃ seen L R, KnnInv N init seen s L R) ⟨init, 0⟩
      (fun s i hi hs => shrinks_knn N (fun i => M.dist q (pts i)) init hlast s i (hb0 i hi) hs) ⟨_, _, _, hinv⟩
    have hmem := perm_range_mem hp
    obtain ⟨L', R', hL⟩ := knn_visitAll N (fun i => M.dist q (pts i)) init hlast vis
      (fun i hi => hb0 i ((hmem i).2 (Or.inl hi))) hinv
    rw [List.nil_append] at hL
    have hgen : ∀ a ∈ L' ++ R', a.index ∈ vis ∧ a.distance = M.dist q (pts a.index) := by
      intro a ha
      obtain ⟨i, hi, rfl⟩ := List.mem_map.1 (hL.perm.subset ha)
      exact ⟨hi, rfl⟩
    have hmax : ¬ (knnMax N (visitAll (knnVisitor N) (fun i => M.dist q (pts i)) vis ⟨init, 0⟩) < 0) := by
      rcases lt_or_eq_of_le hL.le with hlt | heq
      · rw [knnMax_not_full hL hlast hlt]
        exact not_lt.2 hbig.le
      · obtain ⟨L0, z, hz, hmax⟩ := knnMax_full hL heq (by omega)
        rw [hmax, (hgen z (List.mem_append_left _ (by rw [hz]; simp))).2]
        exact not_lt.2 (hd0 _ _)
    have hvis : ∀ i < n, pts i = q → i ∈ vis := by
      intro i hi e
      rcases (hmem i).1 hi with h0 | h0
      · exact h0
      · have := hk i h0 e
        rw [he] at this
        exact absurd this hmax
    have hcopy : ∀ i < n, pts i = q → (⟨i, 0⟩ : Neighbor α) ∈ L' ∨
        init.drop L'.length = [] ∧ ∀ a ∈ L', a.distance = 0 := by
      intro i hi e
      have hin : (⟨i, 0⟩ : Neighbor α) ∈ L' ++ R' := by
        refine hL.perm.symm.subset (List.mem_map.2 ⟨i, hvis i hi e, ?_⟩)
        rw [hzero i e]
      rcases List.mem_append.1 hin with h0 | h0
      · exact Or.inl h0
      · right
        have hfull := hL.full (List.ne_nil_of_mem h0)
        refine ⟨by rw [hfull, List.drop_length], fun a ha => le_antisymm (hL.rejected a ha _ h0) ?_⟩
        rw [(hgen a (List.mem_append_left _ ha)).2]
        exact hd0 _ _
    refine ⟨L', init.drop L'.length, ?_, ?_, hL.sorted, ?_, ?_, ?_, hcopy⟩
    · unfold KdTree.searchKnn KdTree.searchKnnRange
      rw [← hbuf, hT, hi]
      simp only [Outcome.bind, Outcome.ok.injEq]
      rw [he, hL.buf]
    · have := hL.le
      rw [List.length_append, List.length_drop]
      omega
    · have h1 := (List.nodup_append.1 (hp.nodup_iff.2 List.nodup_range)).1
      have h2 := hL.perm.map Neighbor.index
      rw [List.map_map, List.map_append] at h2
      have h3 : (vis.map (Neighbor.index ∘ fun i => (⟨i, M.dist q (pts i)⟩ : Neighbor α))).Nodup := by
        have : (Neighbor.index ∘ fun i => (⟨i, M.dist q (pts i)⟩ : Neighbor α)) = id := rfl
        rw [this, List.map_id]
        exact h1
      exact (List.nodup_append.1 (h2.nodup_iff.2 h3)).1
    · intro a ha
      obtain ⟨h1, h2⟩ := hgen a (List.mem_append_left _ ha)
      exact ⟨(hmem _).2 (Or.inl h1), h2⟩
    · cases hL' : L' with
      | nil =>
        rcases hcopy i0 hi0 hiq with h0 | ⟨h0, _⟩
        · rw [hL'] at h0
          exact absurd h0 (by simp)
        · rw [hL', List.length_nil, List.drop_zero] at h0
          rw [h0] at hlen
          simp only [List.length_nil] at hlen
          omega
      | cons a l =>
        refine ⟨a, l, rfl, ?_⟩
        have ha : a ∈ L' := by rw [hL']; simp
        rcases hcopy i0 hi0 hiq with h0 | ⟨_, h0⟩
        · refine le_antisymm ?_ (by rw [(hgen a (List.mem_append_left _ ha)).2]; exact hd0 _ _)
          have hs := hL.sorted
          rw [hL'] at hs h0
          rcases List.mem_cons.1 h0 with rfl | h0
          · exact le_rfl
          · exact (List.pairwise_cons.1 hs).1 _ h0
        · exact h0 a ha
  · intro sorter r prior sort hr i hi e
    obtain ⟨vis, skip, hp, he, hk⟩ := presented L h hR hn term hg hpick hterm (radiusVisitor r) (fun _ => True)
      (radiusInit prior) (fun s i _ hs => shrinks_radius (fun i => M.dist q (pts i)) r s i trivial hs) trivial
    have hmem := perm_range_mem hp
    have hperm : (T.searchRadius sorter q r prior sort).Perm
        (T.searchNearest q (radiusVisitor r) (radiusInit prior)) := by
      unfold KdTree.searchRadius
      cases sort with
      | false => exact List.Perm.refl _
      | true => exact sorter.sort_perm _ _ strictWeak_neighborLt
    rw [hperm.mem_iff, he, radius_visitAll]
    simp only [radiusInit, List.nil_append, List.mem_filter, List.mem_map, decide_eq_true_eq]
    refine ⟨⟨i, ?_, by rw [hzero i e]⟩, hr⟩
    rcases (hmem i).1 hi with h0 | h0
    · exact h0
    · exact absurd hr (not_lt.2 (hk i h0 e).le)

end Any

section Euclidean
variable {α : Type} [LinearOrder α] [Zero α] [Add α] [Sub α] [Neg α] {d : Nat} {M : Metric α d} {N : Num α}
  {pts : Nat → Pt α d} {n : Nat} {o : BuildOpts α d} {fuel : Nat} {T : KdTree α d (Branch1 α d)} {q : Pt α d}

/-- The Euclidean search; `M'` is a metric with the same one dimensional distance. -/
theorem found_euclidean (L : RoundedLaws α) {M' : Metric α d} (hM' : AxisMetric M') (hone : M.one = M'.one)
    (hone0 : M.one 0 = 0) (h : KdTree.make (euclideanTag α d) M N pts n o fuel = .ok T)
    (hR : Representable N pts n o) (hn : 0 < n) (hd0 : ∀ x y, 0 ≤ M.dist x y) (hself : M.dist q q = 0)
    (hbig : 0 < N.big) (hq : ∃ i < n, pts i = q) : Found T q pts n (fun i => M.dist q (pts i)) N.big := by
  have hpick : (euclideanTag α d).pick M q = (euclideanTag α d).pick M' q := by
    funext data
    simp only [euclideanTag, pickEuclidean, hone]
  obtain ⟨_, _, ⟨box, hB⟩, _⟩ := KdTree.make_built h hR hn
  have hg := guard_axis L hM' q hB [] [] rfl
  simp only [List.nil_append, List.append_nil] at hg
  refine found_of_guard L h hR hn (fun j i => M'.one (q j - pts i j)) (by rw [hpick]; exact hg) ?_ ?_ hd0 hself
    hbig hq
  · intro data
    rw [hpick]
    simp only [euclideanTag, pickEuclidean]
    split_ifs <;> exact hM'.nonneg _
  · intro i _ e j
    rw [e, L.sub_self, ← hone, hone0]

end Euclidean

section Rounded
variable {K : Type} [Field K] [LinearOrder K] [IsStrictOrderedRing K] {R : Rounding K} {d : Nat}
  {N : Num R.F} {pts : Nat → Pt R.F d} {n : Nat} {o : BuildOpts R.F d} {fuel : Nat} {q : Pt R.F d}

theorem add_nonneg_le {a b : R.F} (hb : 0 ≤ b) : a ≤ a + b := by
  rw [R.le_iff, R.val_add]
  have h1 : a.1 ≤ a.1 + b.1 := le_add_of_nonneg_right hb
  have := R.mono _ _ h1
  rwa [a.2] at this

/-- A rounded sum of terms that are not negative is at least each of them. -/
theorem term_le_loopSum (f : Fin d → R.F) (hf : ∀ j, 0 ≤ f j) : 0 ≤ loopSum f ∧ ∀ j, f j ≤ loopSum f := by
  have key : ∀ (l : List (Fin d)) (acc : R.F), 0 ≤ acc →
      acc ≤ l.foldl (fun acc j => acc + f j) acc ∧ ∀ j ∈ l, f j ≤ l.foldl (fun acc j => acc + f j) acc := by
    intro l
    induction l with
    | nil => intro acc _; exact ⟨le_rfl, by simp⟩
    | cons a l ih =>
      intro acc hacc
      rw [List.foldl_cons]
      have h1 : acc ≤ acc + f a := add_nonneg_le (hf a)
      obtain ⟨h2, h3⟩ := ih (acc + f a) (hacc.trans h1)
      refine ⟨h1.trans h2, fun j hj => ?_⟩
      rcases List.mem_cons.1 hj with rfl | hj
      · refine le_trans ?_ h2
        have : acc + f j = f j + acc := Subtype.ext (by rw [R.val_add, R.val_add, add_comm])
        rw [this]
        exact add_nonneg_le hacc
      · exact h3 j hj
  obtain ⟨h1, h2⟩ := key (List.finRange d) 0 le_rfl
  exact ⟨h1, fun j => h2 j (List.mem_finRange j)⟩

theorem loopSum_zero (f : Fin d → R.F) (hf : ∀ j, f j = 0) : loopSum f = 0 := by
  unfold loopSum
  have : ∀ l : List (Fin d), l.foldl (fun acc j => acc + f j) 0 = 0 := by
    intro l
    induction l with
    | nil => rfl
    | cons a l ih => rw [List.foldl_cons, hf a, R.laws.zero_add, ih]
  exact this _

theorem sabs_zero : sabs (0 : R.F) = 0 := by
  unfold sabs
  rw [if_neg (lt_irrefl _)]

theorem sabs_nonneg (x : R.F) : 0 ≤ sabs x := (axis_l1 (d := 1) R.laws).nonneg x

/-- C90 for `metric_l1`. The point found has the coordinates of the query. -/
theorem c90_l1 {T : KdTree R.F d (Branch1 R.F d)}
    (h : KdTree.make (euclideanTag R.F d) (metricL1 R.F d) N pts n o fuel = .ok T)
    (hR : Representable N pts n o) (hbig : 0 < N.big) (hq : ∃ i < n, pts i = q) :
    Found T q pts n (fun i => (metricL1 R.F d).dist q (pts i)) N.big ∧
    ∀ prior, pts (T.searchNn q prior).index = q := by
  have hM := axis_l1 (d := d) R.laws
  have hn : 0 < n := by obtain ⟨i, hi, _⟩ := hq; omega
  have hF := found_euclidean R.laws hM rfl sabs_zero h hR hn
    (fun x y => by rw [hM.dist_eq]; exact (term_le_loopSum _ fun j => hM.nonneg _).1)
    (by rw [hM.dist_eq]; exact loopSum_zero _ fun j => by rw [R.laws.sub_self]; exact sabs_zero) hbig hq
  refine ⟨hF, fun prior => ?_⟩
  have h1 := (hF.nn prior).2.1
  rw [hM.dist_eq] at h1
  funext j
  have h2 := (term_le_loopSum (fun j => (metricL1 R.F d).one (q j - pts (T.searchNn q prior).index j))
    fun j => hM.nonneg _).2 j
  rw [h1] at h2
  by_contra hne
  have h3 : 0 < (metricL1 R.F d).one (q j - pts (T.searchNn q prior).index j) := by
    rcases lt_or_gt_of_ne hne with hlt | hlt
    · have := R.laws.sub_pos _ _ hlt
      change 0 < sabs _
      unfold sabs
      rw [if_neg (not_lt.2 this.le)]
      exact this
    · rw [hM.symm]
      have := R.laws.sub_pos _ _ hlt
      change 0 < sabs _
      unfold sabs
      rw [if_neg (not_lt.2 this.le)]
      exact this
  exact absurd h3 (not_lt.2 h2)

/-- C90 for `metric_l2_squared`. -/
theorem c90_l2 {T : KdTree R.F d (Branch1 R.F d)}
    (h : KdTree.make (euclideanTag R.F d) (metricL2Sq R.F d) N pts n o fuel = .ok T)
    (hR : Representable N pts n o) (hbig : 0 < N.big) (hq : ∃ i < n, pts i = q) :
    Found T q pts n (fun i => (metricL2Sq R.F d).dist q (pts i)) N.big := by
  have hM := axis_l2Sq (d := d) R.laws R.squareLaws
  have hn : 0 < n := by obtain ⟨i, hi, _⟩ := hq; omega
  exact found_euclidean R.laws hM rfl R.squareLaws.zero_mul_zero h hR hn
    (fun x y => by rw [hM.dist_eq]; exact (term_le_loopSum _ fun j => hM.nonneg _).1)
    (by
      rw [hM.dist_eq]
      exact loopSum_zero _ fun j => by rw [R.laws.sub_self]; exact R.squareLaws.zero_mul_zero) hbig hq

/-- C90 for `metric_lpinf`, although its searches miss other neighbors (`c12_false`). -/
theorem c90_lpinf {T : KdTree R.F d (Branch1 R.F d)}
    (h : KdTree.make (euclideanTag R.F d) (metricLPInf R.F d) N pts n o fuel = .ok T)
    (hR : Representable N pts n o) (hbig : 0 < N.big) (hq : ∃ i < n, pts i = q) :
    Found T q pts n (fun i => (metricLPInf R.F d).dist q (pts i)) N.big := by
  have hn : 0 < n := by obtain ⟨i, hi, _⟩ := hq; omega
  have hr : ∀ x : R.F, r1Distance x x = 0 := fun x => by
    unfold r1Distance
    rw [R.laws.sub_self]
    exact sabs_zero
  refine found_euclidean R.laws (axis_l1 (d := d) R.laws) rfl sabs_zero h hR hn ?_ ?_ hbig hq
  · intro x y
    have : ∀ (l : List (Fin d)) (acc : R.F), 0 ≤ acc →
        0 ≤ l.foldl (fun acc i => stdMax acc (r1Distance (x i) (y i))) acc := by
      intro l
      induction l with
      | nil => intro acc h; exact h
      | cons a l ih =>
        intro acc hacc
        rw [List.foldl_cons]
        apply ih
        unfold stdMax
        split
        · exact sabs_nonneg _
        · exact hacc
    exact this _ 0 le_rfl
  · have : ∀ l : List (Fin d), l.foldl (fun acc i => stdMax acc (r1Distance (q i) (q i))) (0 : R.F) = 0 := by
      intro l
      induction l with
      | nil => rfl
      | cons a l ih =>
        rw [List.foldl_cons, hr]
        have : stdMax (0 : R.F) 0 = 0 := by unfold stdMax; split <;> rfl
        rw [this, ih]
    exact this _

/-- C90 for `metric_lninf` and at least one dimension. -/
theorem c90_lninf (hd : 0 < d) {T : KdTree R.F d (Branch1 R.F d)}
    (h : KdTree.make (euclideanTag R.F d) (metricLNInf N d) N pts n o fuel = .ok T)
    (hR : Representable N pts n o) (hbig : 0 < N.big) (hq : ∃ i < n, pts i = q) :
    Found T q pts n (fun i => (metricLNInf N d).dist q (pts i)) N.big := by
  have hn : 0 < n := by obtain ⟨i, hi, _⟩ := hq; omega
  have hr : ∀ x : R.F, r1Distance x x = 0 := fun x => by
    unfold r1Distance
    rw [R.laws.sub_self]
    exact sabs_zero
  have hnn : ∀ (x y : Pt R.F d) (l : List (Fin d)) (acc : R.F), 0 ≤ acc →
      0 ≤ l.foldl (fun acc i => stdMin acc (r1Distance (x i) (y i))) acc := by
    intro x y l
    induction l with
    | nil => intro acc h; exact h
    | cons a l ih =>
      intro acc hacc
      rw [List.foldl_cons]
      apply ih
      unfold stdMin
      split
      · exact sabs_nonneg _
      · exact hacc
  refine found_euclidean R.laws (axis_l1 (d := d) R.laws) rfl sabs_zero h hR hn
    (fun x y => hnn x y _ _ hbig.le) ?_ hbig hq
  have h0 : ∀ l : List (Fin d), l.foldl (fun acc i => stdMin acc (r1Distance (q i) (q i))) (0 : R.F) = 0 := by
    intro l
    induction l with
    | nil => rfl
    | cons a l ih =>
      rw [List.foldl_cons, hr]
      have : stdMin (0 : R.F) 0 = 0 := by unfold stdMin; split <;> rfl
      rw [this, ih]
  change (List.finRange d).foldl (fun acc i => stdMin acc (r1Distance (q i) (q i))) N.big = 0
  cases hl : List.finRange d with
  | nil =>
    have := List.length_finRange (n := d)
    rw [hl] at this
    simp at this
    omega
  | cons a l =>
    rw [List.foldl_cons, hr]
    have : stdMin N.big (0 : R.F) = 0 := by unfold stdMin; rw [if_pos hbig]
    rw [this, h0]

/-- C90 for SE(2) and tori. -/
theorem c90_topological {M : Metric R.F d} (hM : SquareSum M) {T : KdTree R.F d (Branch2 R.F d)}
    (h : KdTree.make (topologicalTag R.F d) M N pts n o fuel = .ok T) (hR : Representable N pts n o)
    (hc : CircleOk M.space pts n o q) (hbig : 0 < N.big) (hq : ∃ i < n, pts i = q) :
    Found T q pts n (fun i => M.dist q (pts i)) N.big := by
  have hn : 0 < n := by obtain ⟨i, hi, _⟩ := hq; omega
  have hg := guard_make (fun j x y => M.one (computedAxis (M.space j) x y))
    (fun dim mn mx v p hs hp => R.circleLaws.boxDistance_le hM.topo dim mn mx v p hs hp) h hR hn q hc
  have hax : ∀ j, computedAxis (M.space j) (q j) (q j) = 0 := by
    intro j
    unfold computedAxis
    cases M.space j with
    | r1 => simp only [R.laws.sub_self]; exact sabs_zero
    | s1 =>
      simp only [s1Distance, R.laws.sub_self, sabs_zero]
      have h1 : (0 : R.F) ≤ 1 := by
        rw [R.le_iff]
        have := R.mono 0 1 zero_le_one
        rwa [R.rd_zero] at this
      unfold stdMin
      rw [if_neg (not_lt.2 (R.circleLaws.sub_nonneg h1))]
  refine found_of_guard R.laws h hR hn _ hg (fun data => ?_) ?_
    (fun x y => by rw [hM.dist]; exact (term_le_loopSum _ fun j => hM.nonneg _).1) ?_ hbig hq
  · simp only [topologicalTag, pickTopological]
    split_ifs <;> exact hM.nonneg _
  · intro i _ e j
    rw [e, hax, hM.topo.one_zero]
  · rw [hM.dist]
    exact loopSum_zero _ fun j => by rw [hax, hM.topo.one_zero]

end Rounded

/-- The hypotheses hold for the single precision points with which `c46_false` makes a search fail. -/
example : ∃ T, KdTree.make (euclideanTag F32 2) (metricL2Sq F32 2) f32Num nearCircle 5
    (Ref.optsSliding F32 2) 10 = .ok T ∧
    Found T (nearCircle 3) nearCircle 5 (fun i => (metricL2Sq F32 2).dist (nearCircle 3) (nearCircle i))
      f32Num.big := by
  obtain ⟨T, h1, _⟩ := Outcome.exists_of_check (x := KdTree.make (euclideanTag F32 2) (metricL2Sq F32 2)
    f32Num nearCircle 5 (Ref.optsSliding F32 2) 10) (p := fun _ => true) (by decide +kernel)
  exact ⟨T, h1, c90_l2 h1 nearCircle_representable (by decide +kernel) ⟨3, by decide, rfl⟩⟩

example : ∃ T, KdTree.make (euclideanTag F32 2) (metricL1 F32 2) f32Num nearCircle 5
    (Ref.optsSliding F32 2) 10 = .ok T ∧
    Found T (nearCircle 3) nearCircle 5 (fun i => (metricL1 F32 2).dist (nearCircle 3) (nearCircle i))
      f32Num.big := by
  obtain ⟨T, h1, _⟩ := Outcome.exists_of_check (x := KdTree.make (euclideanTag F32 2) (metricL1 F32 2)
    f32Num nearCircle 5 (Ref.optsSliding F32 2) 10) (p := fun _ => true) (by decide +kernel)
  exact ⟨T, h1, (c90_l1 h1 nearCircle_representable (by decide +kernel) ⟨3, by decide, rfl⟩).1⟩

example : ∃ T, KdTree.make (euclideanTag F32 2) (metricLPInf F32 2) f32Num nearCircle 5
    (Ref.optsSliding F32 2) 10 = .ok T ∧
    Found T (nearCircle 3) nearCircle 5 (fun i => (metricLPInf F32 2).dist (nearCircle 3) (nearCircle i))
      f32Num.big := by
  obtain ⟨T, h1, _⟩ := Outcome.exists_of_check (x := KdTree.make (euclideanTag F32 2) (metricLPInf F32 2)
    f32Num nearCircle 5 (Ref.optsSliding F32 2) 10) (p := fun _ => true) (by decide +kernel)
  exact ⟨T, h1, c90_lpinf h1 nearCircle_representable (by decide +kernel) ⟨3, by decide, rfl⟩⟩

example : ∃ T, KdTree.make (euclideanTag F32 2) (metricLNInf f32Num 2) f32Num nearCircle 5
    (Ref.optsSliding F32 2) 10 = .ok T ∧
    Found T (nearCircle 3) nearCircle 5 (fun i => (metricLNInf f32Num 2).dist (nearCircle 3) (nearCircle i))
      f32Num.big := by
  obtain ⟨T, h1, _⟩ := Outcome.exists_of_check (x := KdTree.make (euclideanTag F32 2) (metricLNInf f32Num 2)
    f32Num nearCircle 5 (Ref.optsSliding F32 2) 10) (p := fun _ => true) (by decide +kernel)
  exact ⟨T, h1, c90_lninf (by decide) h1 nearCircle_representable (by decide +kernel) ⟨3, by decide, rfl⟩⟩

example : ∃ T, KdTree.make (topologicalTag F32 3) (metricSE2Sq F32) f32Num poses4 4 (Ref.optsSliding F32 3) 10
      = .ok T ∧
    Found T (poses4 2) poses4 4 (fun i => (metricSE2Sq F32).dist (poses4 2) (poses4 i)) f32Num.big := by
  obtain ⟨T, h1, _⟩ := Outcome.exists_of_check (x := KdTree.make (topologicalTag F32 3) (metricSE2Sq F32)
    f32Num poses4 4 (Ref.optsSliding F32 3) 10) (p := fun _ => true) (by decide +kernel)
  exact ⟨T, h1, c90_topological squareSum_se2 h1
    ⟨by decide +kernel, by
      have : ∀ i < 4, ∀ j, f32Num.low ≤ poses4 i j ∧ poses4 i j ≤ f32Num.big := by decide +kernel
      exact this, trivial, fun h => by simp [Ref.optsSliding] at h⟩
    (circleOk_of (by decide +kernel) (by decide +kernel)) (by decide +kernel) ⟨2, by decide, rfl⟩⟩

/-- Two points so close to each other that the square of their distance underflows. -/
def tiny : Nat → Pt F32 1
  | 0 => ![0]
  | _ => ![(ieee 23 (-149)).ofK (1 / 2 ^ 100)]

/-- With `metric_l2_squared` the point found can be another one: squares underflow. -/
theorem c90_l2_other : ∃ T, KdTree.make (euclideanTag F32 1) (metricL2Sq F32 1) f32Num tiny 2
    (Ref.optsMedian F32 1) 10 = .ok T ∧ tiny 0 ≠ tiny 1 ∧
    T.searchNn (tiny 1) ⟨7, 0⟩ = ⟨0, 0⟩ := by
  obtain ⟨T, h1, h2⟩ := Outcome.exists_of_check (x := KdTree.make (euclideanTag F32 1) (metricL2Sq F32 1)
    f32Num tiny 2 (Ref.optsMedian F32 1) 10)
    (p := fun T => decide (tiny 0 ≠ tiny 1 ∧ T.searchNn (tiny 1) ⟨7, 0⟩ = ⟨0, 0⟩)) (by decide +kernel)
  exact ⟨T, h1, of_decide_eq_true h2⟩

end Pico.Props
