import Verif.Proof.GridNear
import Verif.Props.Grid

/-!
# C97: on a grid, near points are found exactly

C68 asks for a bound on all coordinates.  Here only the results have to be small: the points may be anywhere on
the grid, so that most distances are rounded.
-/

set_option linter.unusedSectionVars false

namespace Pico.Props

open Pico Spec

section
variable {K : Type} [Field K] [LinearOrder K] [IsStrictOrderedRing K] {R : Rounding K} {d : Nat} {c : K} {L : Nat}

/-- The coordinates are multiples of `c`. -/
def OnLattice (c : K) (x : Pt R.F d) : Prop := ∀ j, ∃ m : ℤ, (x j).1 = m * c

/-- The neighbor as an exact one. -/
def exactNeighbor (x : Neighbor R.F) : Neighbor K := ⟨x.index, x.distance.1⟩

/-- The limit, as a scalar. -/
def limit (hX : R.ExactUpTo c L) : R.F := ⟨L * c, by have := hX L (by simp); simpa using this⟩

/-- Sums are exact up to the limit and at least the limit otherwise. -/
theorem min_le_loopSum (hc : 0 < c) (hX : R.ExactUpTo c L) (f : Fin d → R.F) (h0 : ∀ j, 0 ≤ (f j).1)
    (hG : ∀ j, (f j).1 ≤ L * c → ∃ m : ℤ, (f j).1 = m * c) :
    min (L * c) (∑ j, (f j).1) ≤ (loopSum f).1 := by
  have hlim : R.rd (L * c) = L * c := (limit hX).2
  have key : ∀ (l : List (Fin d)) (acc : R.F) (S : K), 0 ≤ S → (S ≤ L * c → ∃ m : ℤ, S = m * c) →
      min (L * c) S ≤ acc.1 →
      min (L * c) (S + (l.map fun j => (f j).1).sum) ≤ (l.foldl (fun acc j => acc + f j) acc).1 := by
    intro l
    induction l with
    | nil => intro acc S _ _ h; simpa using h
    | cons a l ih =>
      intro acc S hS hSm h
      rw [List.map_cons, List.sum_cons, List.foldl_cons, ← add_assoc]
      have ha := h0 a
      have hmul : S + (f a).1 ≤ L * c → ∃ m : ℤ, S + (f a).1 = m * c := by
        intro hle
        obtain ⟨m, hm⟩ := hSm (by linarith)
        obtain ⟨m', hm'⟩ := hG a (by linarith)
        exact ⟨m + m', by rw [hm, hm']; push_cast; ring⟩
      refine ih _ _ (add_nonneg hS ha) hmul ?_
      rw [R.val_add]
      by_cases hle : S + (f a).1 ≤ L * c
      · rw [min_eq_right hle]
        rw [min_eq_right (by linarith)] at h
        obtain ⟨m, hm⟩ := hmul hle
        have hm0 : (0 : K) ≤ m := nonneg_of_mul_nonneg_left (by rw [← hm]; linarith) hc
        have hmL : (m : K) ≤ L := le_of_mul_le_mul_right (by rw [← hm]; exact hle) hc
        have e := hX m (by rw [abs_of_nonneg (by exact_mod_cast hm0)]; exact_mod_cast hmL)
        rw [← hm] at e
        calc S + (f a).1 = R.rd (S + (f a).1) := e.symm
          _ ≤ _ := R.mono _ _ (by linarith)
      · push Not at hle
        rw [min_eq_left hle.le]
        calc (L : K) * c = R.rd (L * c) := hlim.symm
          _ ≤ _ := R.mono _ _ (by
            rcases le_total S (L * c) with h1 | h1
            · rw [min_eq_right h1] at h; linarith
            · rw [min_eq_left h1] at h; linarith)
  have := key (List.finRange d) 0 0 le_rfl (fun _ => ⟨0, by simp⟩) (by rw [R.val_zero]; exact min_le_right _ _)
  rw [zero_add, ← List.ofFn_eq_map, List.sum_ofFn] at this
  exact this

/-- Differences on the lattice are exact up to the limit and at least the limit otherwise. -/
theorem lattice_sub (hc : 0 < c) (hX : R.ExactUpTo c L) {x y : R.F} {a b : ℤ} (ha : x.1 = a * c) (hb : y.1 = b * c) :
    (|a - b| ≤ (L : ℤ) → (x - y).1 = (a - b : ℤ) * c) ∧ ((L : ℤ) < |a - b| → L * c ≤ |(x - y).1|) := by
  have e : x.1 - y.1 = ((a - b : ℤ) : K) * c := by rw [ha, hb]; push_cast; ring
  constructor
  · intro h
    rw [R.val_sub, e]
    exact hX _ h
  · intro h
    rw [R.val_sub, e]
    have hlim : R.rd (L * c) = L * c := (limit hX).2
    rcases le_total 0 (a - b) with h0 | h0
    · rw [abs_of_nonneg h0] at h
      refine le_trans (le_of_eq hlim.symm) ((R.mono _ _ ?_).trans (le_abs_self _))
      exact mul_le_mul_of_nonneg_right (by exact_mod_cast h.le) hc.le
    · rw [abs_of_nonpos h0] at h
      refine le_trans (le_of_eq hlim.symm) (le_trans ?_ (neg_le_abs _))
      rw [← R.odd]
      refine R.mono _ _ ?_
      rw [← neg_mul]
      exact mul_le_mul_of_nonneg_right (by exact_mod_cast h.le) hc.le

/-- What a search has to find, in terms of exact distances `D`. -/
def NearExact (n : Nat) (T : KdTree R.F d (Branch1 R.F d)) (q : Pt R.F d) (D : Nat → K) (lim : K) : Prop :=
  (∀ nn, (∃ i < n, D i < lim) → IsNN n D (exactNeighbor (T.searchNn q nn))) ∧
  (∀ k prior (near : List Nat), 0 < k → near.Nodup → (∀ i ∈ near, i < n ∧ D i < lim) → min k n ≤ near.length →
    ∃ out, T.searchKnn q k prior = .ok out ∧ IsKnn n k D (out.map exactNeighbor)) ∧
  ∀ sorter r prior sort, r.1 ≤ lim →
    IsRadius n D r.1 ((T.searchRadius sorter q r prior sort).map exactNeighbor)

/-! Computed distances that are exact up to the limit and at least the limit beyond it. -/

section Convert
variable {n : Nat} {dist : Nat → R.F} {D : Nat → K} {lim : R.F}
  (hval : ∀ i < n, D i ≤ lim.1 → (dist i).1 = D i) (hfar : ∀ i < n, ¬ D i ≤ lim.1 → lim ≤ dist i)
include hval hfar

theorem convert_lt {i : Nat} (hi : i < n) {x : R.F} (hx : x ≤ lim) : dist i < x ↔ D i < x.1 := by
  by_cases near : D i ≤ lim.1
  · rw [R.lt_iff, hval i hi near]
  · constructor
    · intro h
      exact absurd (lt_of_lt_of_le h hx) (not_lt.2 (hfar i hi near))
    · intro h
      exact absurd (h.le.trans ((R.le_iff _ _).1 hx)) near

theorem convert_nn {r : Neighbor R.F} (h : IsNN n dist r) (hex : ∃ i < n, D i < lim.1) :
    IsNN n D (exactNeighbor r) := by
  obtain ⟨i, hi, hlt⟩ := hex
  have h1 : dist r.index < lim := by
    rw [← h.distance]
    exact lt_of_le_of_lt (h.nearest i hi) ((convert_lt hval hfar hi le_rfl).2 hlt)
  have h2 : D r.index < lim.1 := (convert_lt hval hfar h.valid le_rfl).1 h1
  have h3 : r.distance.1 = D r.index := by rw [h.distance]; exact hval _ h.valid h2.le
  refine ⟨h.valid, h3, fun j hj => ?_⟩
  change r.distance.1 ≤ D j
  by_cases near : D j ≤ lim.1
  · rw [← hval j hj near]
    exact (R.le_iff _ _).1 (h.nearest j hj)
  · rw [h3]
    linarith [not_le.1 near]

theorem convert_knn {k : Nat} {out : List (Neighbor R.F)} (h : IsKnn n k dist out) {near : List Nat}
    (hnd : near.Nodup) (hnear : ∀ i ∈ near, i < n ∧ D i < lim.1) (hlen : min k n ≤ near.length) :
    IsKnn n k D (out.map exactNeighbor) := by
  obtain ⟨rest, hp, hrest⟩ := h.rest
  have hcount : out.length ≤ (out ++ rest).countP fun x => decide (x.distance < lim) := by
    rw [hp.countP_eq, Spec.all, List.countP_map, h.length]
    refine hlen.trans (le_countP hnd fun i hi => ⟨List.mem_range.2 (hnear i hi).1, ?_⟩)
    simpa using (convert_lt hval hfar (hnear i hi).1 le_rfl).2 (hnear i hi).2
  have hmem : ∀ x ∈ out ++ rest, x.index < n ∧ x.distance = dist x.index := by
    intro x hx
    obtain ⟨i, hi, rfl⟩ := List.mem_map.1 (hp.subset hx)
    exact ⟨List.mem_range.1 hi, rfl⟩
  have hsmall : ∀ a ∈ out, a.distance < lim := by
    intro a ha
    by_contra hc
    push Not at hc
    have := all_of_count (fun x : Neighbor R.F => decide (x.distance < lim)) (l := out) (rest := rest)
      (fun b hb => by simpa using hc.trans (hrest a ha b hb)) hcount a ha
    simp only [decide_eq_true_eq] at this
    exact absurd this (not_lt.2 hc)
  have hnearD : ∀ a ∈ out, D a.index < lim.1 ∧ a.distance.1 = D a.index := by
    intro a ha
    obtain ⟨h1, h2⟩ := hmem a (List.mem_append_left _ ha)
    have h3 := hsmall a ha
    rw [h2] at h3 ⊢
    have h4 := (convert_lt hval hfar h1 le_rfl).1 h3
    exact ⟨h4, hval _ h1 h4.le⟩
  refine ⟨by rw [List.length_map, h.length], ?_, ?_⟩
  · rw [List.pairwise_map]
    exact h.sorted.imp fun hab => (R.le_iff _ _).1 hab
  · refine ⟨rest.map fun x => ⟨x.index, D x.index⟩, ?_, ?_⟩
    · have e : out.map exactNeighbor = out.map fun x : Neighbor R.F => (⟨x.index, D x.index⟩ : Neighbor K) :=
        List.map_congr_left fun a ha => by
          unfold exactNeighbor
          rw [(hnearD a ha).2]
      rw [e, ← List.map_append]
      refine (hp.map _).trans (List.Perm.of_eq ?_)
      unfold Spec.all
      rw [List.map_map]
      rfl
    · intro a ha b hb
      obtain ⟨a, ha', rfl⟩ := List.mem_map.1 ha
      obtain ⟨b, hb', rfl⟩ := List.mem_map.1 hb
      obtain ⟨h1, h2⟩ := hmem b (List.mem_append_right _ hb')
      have h3 := (R.le_iff _ _).1 (hrest a ha' b hb')
      change a.distance.1 ≤ D b.index
      by_cases hb : D b.index ≤ lim.1
      · rw [← hval _ h1 hb, ← h2]
        exact h3
      · rw [(hnearD a ha').2]
        linarith [not_le.1 hb, (hnearD a ha').1]

theorem convert_radius {r : R.F} {out : List (Neighbor R.F)} (h : IsRadius n dist r out) (hr : r ≤ lim) :
    IsRadius n D r.1 (out.map exactNeighbor) := by
  unfold IsRadius at h ⊢
  refine (h.map exactNeighbor).trans (List.Perm.of_eq ?_)
  unfold Spec.all
  rw [List.filter_map, List.filter_map, List.map_map]
  have e : (List.range n).filter ((fun x : Neighbor R.F => decide (x.distance < r)) ∘ fun i => ⟨i, dist i⟩) =
      (List.range n).filter ((fun x : Neighbor K => decide (x.distance < r.1)) ∘ fun i => ⟨i, D i⟩) := by
    refine List.filter_congr fun i hi => ?_
    simp only [Function.comp_apply]
    exact decide_eq_decide.2 (convert_lt hval hfar (List.mem_range.1 hi) hr)
  rw [e]
  refine List.map_congr_left fun i hi => ?_
  obtain ⟨h1, h2⟩ := List.mem_filter.1 hi
  simp only [Function.comp_apply, decide_eq_true_eq] at h2
  simp only [Function.comp_apply, exactNeighbor]
  rw [hval i (List.mem_range.1 h1) (h2.le.trans ((R.le_iff _ _).1 hr))]

end Convert

variable {M : Metric R.F d} {N : Num R.F} {pts : Nat → Pt R.F d} {n : Nat} {o : BuildOpts R.F d} {fuel : Nat}
  {T : KdTree R.F d (Branch1 R.F d)}

theorem nearExact_of_terms (hc : 0 < c) (hX : R.ExactUpTo c L) (hM : AxisMetric M)
    (h : KdTree.make (euclideanTag R.F d) M N pts n o fuel = .ok T)
    (hR : Representable N pts n o) (hn : 0 < n) (hr : o.rule ≠ .midpoint) (q : Pt R.F d)
    (hbig : ∀ i < n, M.dist q (pts i) < N.big) (t : Nat → Fin d → K)
    (hterm : ∀ i < n, ∀ j, ∃ m : ℤ, 0 ≤ m ∧ t i j = m * c ∧ ((M.one (q j - pts i j)).1 = m * c ∨
      (L : ℤ) < m ∧ L * c ≤ (M.one (q j - pts i j)).1)) :
    NearExact n T q (fun i => ∑ j, t i j) (L * c) := by
  have ht0 : ∀ i < n, ∀ j, 0 ≤ t i j := by
    intro i hi j
    obtain ⟨m, hm, e, -⟩ := hterm i hi j
    rw [e]
    exact mul_nonneg (by exact_mod_cast hm) hc.le
  -- terms of near points are exact
  have hexact : ∀ i < n, (∑ j, t i j ≤ L * c) → ∀ j, (M.one (q j - pts i j)).1 = t i j := by
    intro i hi hle j
    obtain ⟨m, hm, e, h1 | ⟨h1, -⟩⟩ := hterm i hi j
    · rw [h1, e]
    · exfalso
      have h2 : t i j ≤ L * c := (Finset.single_le_sum (fun j _ => ht0 i hi j) (Finset.mem_univ j)).trans hle
      rw [e] at h2
      have h3 : (m : K) ≤ L := le_of_mul_le_mul_right h2 hc
      have : m ≤ (L : ℤ) := by exact_mod_cast h3
      omega
  have hgrid : ∀ i < n, ∀ j, (M.one (q j - pts i j)).1 ≤ L * c → ∃ m : ℤ, (M.one (q j - pts i j)).1 = m * c := by
    intro i hi j hle
    obtain ⟨m, hm, e, h1 | ⟨-, h1⟩⟩ := hterm i hi j
    · exact ⟨m, h1⟩
    · exact ⟨L, by rw [le_antisymm hle h1]; push_cast; rfl⟩
  obtain ⟨_, _, ⟨box, hB⟩, _⟩ := KdTree.make_built h hR hn
  have hg := guard_axis R.laws hM q hB [] [] rfl
  simp only [List.nil_append, List.append_nil] at hg
  obtain ⟨hE, hv⟩ := nearAt_grid (R.exactSums hc hX) h hR hn hr q (fun i => ∑ j, t i j ≤ L * c)
    (fun i _ => hM.dist_eq _ _) (fun i _ j => hM.symm _ _)
    (by
      intro i hi j hle
      obtain ⟨m, e⟩ := hgrid i hi j hle
      rw [AddSubgroup.mem_zmultiples_iff]
      exact ⟨m, by rw [zsmul_eq_mul]; exact e.symm⟩)
    (fun i hi j => hM.nonneg _)
    (by
      intro i hi near
      rw [Finset.sum_congr rfl fun j _ => hexact i hi near j]
      exact near) hg
  have hval : ∀ i < n, (∑ j, t i j ≤ L * c) → (M.dist q (pts i)).1 = ∑ j, t i j := by
    intro i hi near
    rw [hv i hi near]
    exact Finset.sum_congr rfl fun j _ => hexact i hi near j
  have hfar : ∀ i < n, ¬ (∑ j, t i j ≤ L * c) → L * c ≤ (M.dist q (pts i)).1 := by
    intro i hi far
    push Not at far
    rw [hM.dist_eq]
    refine le_trans ?_ (min_le_loopSum hc hX _ (fun j => hM.nonneg _) (hgrid i hi))
    refine le_min le_rfl ?_
    by_cases hall : ∀ j, (M.one (q j - pts i j)).1 = t i j
    · rw [Finset.sum_congr rfl fun j _ => hall j]
      exact far.le
    · push Not at hall
      obtain ⟨j, hj⟩ := hall
      obtain ⟨m, hm, e, h1 | ⟨-, h1⟩⟩ := hterm i hi j
      · exact absurd (h1.trans e.symm) hj
      · exact h1.trans (Finset.single_le_sum (f := fun j => (M.one (q j - pts i j)).1)
          (fun j _ => hM.nonneg (q j - pts i j)) (Finset.mem_univ j))
  obtain ⟨_, rfl, rfl, rfl, rfl, _⟩ := KdTree.make_ok h
  have hval' : ∀ i < T.n, (∑ j, t i j ≤ (limit hX).1) → (T.metric.dist q (T.pts i)).1 = ∑ j, t i j := hval
  have hfar' : ∀ i < T.n, ¬ (∑ j, t i j ≤ (limit hX).1) → limit hX ≤ T.metric.dist q (T.pts i) :=
    fun i hi far => (R.le_iff _ _).2 (hfar i hi far)
  have hle : ∀ i < T.n, (∑ j, t i j < (limit hX).1) → T.metric.dist q (T.pts i) ≤ limit hX := by
    intro i hi hlt
    rw [R.le_iff, hval' i hi hlt.le]
    exact hlt.le
  refine ⟨?_, ?_, ?_⟩
  · rintro nn ⟨i, hi, hlt⟩
    exact convert_nn hval' hfar' (hE.nn hfar' hbig hi hlt.le (hle i hi hlt) nn) ⟨i, hi, hlt⟩
  · intro k prior near hk hnd hnear hlen
    obtain ⟨out, h1, h2⟩ := hE.knn hfar' hbig k hk hn hnd
      (fun i hi => ⟨(hnear i hi).1, (hnear i hi).2.le, hle i (hnear i hi).1 (hnear i hi).2⟩) hlen prior
    exact ⟨out, h1, convert_knn hval' hfar' h2 hnd hnear hlen⟩
  · intro sorter r prior sort hr'
    exact convert_radius hval' hfar' (hE.radius hfar' sorter r ((R.le_iff _ _).2 hr') prior sort)
      ((R.le_iff _ _).2 hr')

/-- C97 for `metric_l1`: coordinates are multiples of `c`, and integers up to `L` times `c` are representable. Whatever
is closer than `L * c` is found exactly. -/
theorem c97_l1 (hc : 0 < c) (hX : R.ExactUpTo c L)
    (h : KdTree.make (euclideanTag R.F d) (metricL1 R.F d) N pts n o fuel = .ok T)
    (hR : Representable N pts n o) (hn : 0 < n) (hr : o.rule ≠ .midpoint) (q : Pt R.F d)
    (hq : OnLattice c q) (hp : ∀ i < n, OnLattice c (pts i))
    (hbig : ∀ i < n, (metricL1 R.F d).dist q (pts i) < N.big) :
    NearExact n T q (fun i => Spec.l1 (R.exactPt q) (R.exactPt (pts i))) (L * c) := by
  refine nearExact_of_terms hc hX (axis_l1 (d := d) R.laws) h hR hn hr q hbig
    (fun i j => |(q j).1 - (pts i j).1|) fun i hi j => ?_
  obtain ⟨a, ea⟩ := hq j
  obtain ⟨b, eb⟩ := hp i hi j
  obtain ⟨h1, h2⟩ := lattice_sub hc hX ea eb
  refine ⟨|a - b|, abs_nonneg _, ?_, ?_⟩
  · rw [ea, eb, ← sub_mul, abs_mul, abs_of_pos hc]
    push_cast
    rfl
  · change (sabs (q j - pts i j)).1 = _ ∨ _ ∧ _ ≤ (sabs (q j - pts i j)).1
    rw [R.sabs_val]
    rcases le_or_gt |a - b| (L : ℤ) with hle | hgt
    · left
      rw [h1 hle, abs_mul, abs_of_pos hc]
      push_cast
      rfl
    · exact .inr ⟨hgt, h2 hgt⟩

/-- C97 for `metric_l2_squared`: whatever is closer than `L * c^2` is found exactly. -/
theorem c97_l2 (hc : 0 < c) (hL : 0 < L) (hX : R.ExactUpTo c L) (hX2 : R.ExactUpTo (c ^ 2) L)
    (h : KdTree.make (euclideanTag R.F d) (metricL2Sq R.F d) N pts n o fuel = .ok T)
    (hR : Representable N pts n o) (hn : 0 < n) (hr : o.rule ≠ .midpoint) (q : Pt R.F d)
    (hq : OnLattice c q) (hp : ∀ i < n, OnLattice c (pts i))
    (hbig : ∀ i < n, (metricL2Sq R.F d).dist q (pts i) < N.big) :
    NearExact n T q (fun i => Spec.l2Sq (R.exactPt q) (R.exactPt (pts i))) (L * c ^ 2) := by
  have hc2 : 0 < c ^ 2 := by positivity
  refine nearExact_of_terms hc2 hX2 (axis_l2Sq (d := d) R.laws R.squareLaws) h hR hn hr q hbig
    (fun i j => ((q j).1 - (pts i j).1) ^ 2) fun i hi j => ?_
  obtain ⟨a, ea⟩ := hq j
  obtain ⟨b, eb⟩ := hp i hi j
  obtain ⟨h1, h2⟩ := lattice_sub hc hX ea eb
  refine ⟨(a - b) ^ 2, sq_nonneg _, ?_, ?_⟩
  · rw [ea, eb, ← sub_mul]
    push_cast
    ring
  · change ((q j - pts i j) * (q j - pts i j)).1 = _ ∨ _ ∧ _ ≤ ((q j - pts i j) * (q j - pts i j)).1
    rw [R.val_mul]
    have hL1 : (1 : K) ≤ L := by exact_mod_cast hL
    rcases le_or_gt |a - b| (L : ℤ) with hle | hgt
    · have e : ((a - b : ℤ) : K) * c * ((a - b : ℤ) * c) = (((a - b) ^ 2 : ℤ) : K) * c ^ 2 := by push_cast; ring
      rw [h1 hle, e]
      rcases le_or_gt ((a - b) ^ 2) (L : ℤ) with hle2 | hgt2
      · left
        exact hX2 _ (by rw [abs_of_nonneg (sq_nonneg _)]; exact hle2)
      · refine .inr ⟨hgt2, ?_⟩
        calc (L : K) * c ^ 2 = R.rd (L * c ^ 2) := ((limit hX2).2).symm
          _ ≤ _ := R.mono _ _ (mul_le_mul_of_nonneg_right (by exact_mod_cast hgt2.le) hc2.le)
    · right
      constructor
      · have : (L : ℤ) < |a - b| ^ 2 := by nlinarith
        rwa [sq_abs] at this
      · have h3 := h2 hgt
        calc (L : K) * c ^ 2 = R.rd (L * c ^ 2) := ((limit hX2).2).symm
          _ ≤ _ := R.mono _ _ ?_
        rw [← sq, ← sq_abs (q j - pts i j).1]
        calc (L : K) * c ^ 2 ≤ L ^ 2 * c ^ 2 := mul_le_mul_of_nonneg_right (by nlinarith) hc2.le
          _ = (L * c) ^ 2 := by ring
          _ ≤ _ := pow_le_pow_left₀ (by positivity) h3 2

end

/-- C97 for floating point numbers with `p + 1` significant bits and gradual underflow at `2^e`: coordinates are
multiples of `2^k`, of any size. -/
theorem c97_ieee {p d fuel n : Nat} {e k : ℤ} {N : Num (ieee p e).F} {pts : Nat → Pt (ieee p e).F d}
    {o : BuildOpts (ieee p e).F d} {T : KdTree (ieee p e).F d (Branch1 (ieee p e).F d)}
    (hk : e ≤ k) (hk2 : e ≤ 2 * k)
    (h : KdTree.make (euclideanTag (ieee p e).F d) (metricL2Sq (ieee p e).F d) N pts n o fuel = .ok T)
    (hR : Representable N pts n o) (hn : 0 < n) (hr : o.rule ≠ .midpoint) (q : Pt (ieee p e).F d)
    (hq : OnLattice (2 ^ k) q) (hp : ∀ i < n, OnLattice (2 ^ k) (pts i))
    (hbig : ∀ i < n, (metricL2Sq (ieee p e).F d).dist q (pts i) < N.big) :
    NearExact n T q (fun i => Spec.l2Sq ((ieee p e).exactPt q) ((ieee p e).exactPt (pts i))) (2 ^ (p + 1 + 2 * k)) := by
  have e2 : ((2 : ℚ) ^ k) ^ 2 = 2 ^ (2 * k) := by rw [← zpow_natCast, ← zpow_mul]; congr 1; push_cast; ring
  have := c97_l2 (by positivity) (by positivity) (ieee_exactUpTo p e hk) (by rw [e2]; exact ieee_exactUpTo p e hk2)
    h hR hn hr q hq hp hbig
  convert this using 1
  rw [e2, zpow_add₀ (by norm_num)]
  push_cast
  norm_cast

/-- C97 for `float` and integers, for instance the pixels of images: what is closer than 2^24 is found exactly. -/
theorem c97_float {d fuel n : Nat} {N : Num F32} {pts : Nat → Pt F32 d} {o : BuildOpts F32 d}
    {T : KdTree F32 d (Branch1 F32 d)}
    (h : KdTree.make (euclideanTag F32 d) (metricL2Sq F32 d) N pts n o fuel = .ok T)
    (hR : Representable N pts n o) (hn : 0 < n) (hr : o.rule ≠ .midpoint) (q : Pt F32 d)
    (hq : ∀ j, ∃ m : ℤ, (q j).1 = m) (hp : ∀ i < n, ∀ j, ∃ m : ℤ, (pts i j).1 = m)
    (hbig : ∀ i < n, (metricL2Sq F32 d).dist q (pts i) < N.big) :
    NearExact n T q (fun i => Spec.l2Sq ((ieee 23 (-149)).exactPt q) ((ieee 23 (-149)).exactPt (pts i))) (2 ^ 24) := by
  have := c97_ieee (k := 0) (by decide) (by decide) h hR hn hr q
    (fun j => by obtain ⟨m, e⟩ := hq j; exact ⟨m, by rw [e]; simp⟩)
    (fun i hi j => by obtain ⟨m, e⟩ := hp i hi j; exact ⟨m, by rw [e]; simp⟩) hbig
  convert this using 1
  norm_num

/-- Four points, far apart: most of the squared distances exceed 2^24. -/
def wide4 : Nat → Pt F32 2
  | 0 => ![f32 1000001, f32 0]
  | 1 => ![f32 (-4097), f32 4095]
  | 2 => ![f32 1001, f32 2003]
  | _ => ![f32 77, f32 (-9999999)]

theorem wide4_representable : Representable f32Num wide4 4 (Ref.optsSliding F32 2) where
  num := by decide +kernel
  points i hi j := by
    have : ∀ i < 4, ∀ j, f32Num.low ≤ wide4 i j ∧ wide4 i j ≤ f32Num.big := by decide +kernel
    exact this i hi j
  bounds := trivial
  mid h := by simp [Ref.optsSliding] at h

theorem integer_pair (a b : ℤ) (ha : roundTiny 23 (-149) a = a) (hb : roundTiny 23 (-149) b = b) :
    ∀ j, ∃ m : ℤ, ((![f32 a, f32 b] : Pt F32 2) j).1 = m := by
  intro j
  fin_cases j
  · exact ⟨a, f32_exact a ha⟩
  · exact ⟨b, f32_exact b hb⟩

example : ∃ T, KdTree.make (euclideanTag F32 2) (metricL2Sq F32 2) f32Num wide4 4 (Ref.optsSliding F32 2) 10
      = .ok T ∧ IsNN 4 (fun i => Spec.l2Sq ((ieee 23 (-149)).exactPt ![f32 1, f32 2])
        ((ieee 23 (-149)).exactPt (wide4 i))) (exactNeighbor (T.searchNn ![f32 1, f32 2] ⟨0, 0⟩)) := by
  obtain ⟨T, h1, -⟩ := Outcome.exists_of_check (x := KdTree.make (euclideanTag F32 2) (metricL2Sq F32 2)
    f32Num wide4 4 (Ref.optsSliding F32 2) 10) (p := fun _ => true) (by decide +kernel)
  refine ⟨T, h1, (c97_float h1 wide4_representable (by decide) (by decide) ![f32 1, f32 2]
    (integer_pair 1 2 (by decide +kernel) (by decide +kernel)) ?_ (by decide +kernel)).1 _
    ⟨2, by decide, by decide +kernel⟩⟩
  intro i hi
  interval_cases i
  · exact integer_pair 1000001 0 (by decide +kernel) (by decide +kernel)
  · exact integer_pair (-4097) 4095 (by decide +kernel) (by decide +kernel)
  · exact integer_pair 1001 2003 (by decide +kernel) (by decide +kernel)
  · exact integer_pair 77 (-9999999) (by decide +kernel) (by decide +kernel)

/-- Two points beyond the limit. -/
def beyond2 : Nat → Pt F32 3
  | 0 => ![f32 4097, f32 0, f32 0]
  | _ => ![f32 4096, f32 64, f32 64]

/-- The limit of `c97_float` is needed: the nearest point is the second one, 2^24 + 8192 away; the first one is found,
although it is farther away by one. -/
theorem c97_limit : ∃ T, KdTree.make (euclideanTag F32 3) (metricL2Sq F32 3) f32Num beyond2 2 (Ref.optsSliding F32 3) 10
      = .ok T ∧ (T.searchNn ![0, 0, 0] ⟨9, 0⟩).index = 0 ∧
    Spec.l2Sq ((ieee 23 (-149)).exactPt ![0, 0, 0]) ((ieee 23 (-149)).exactPt (beyond2 0)) = 2 ^ 24 + 8193 ∧
    Spec.l2Sq ((ieee 23 (-149)).exactPt ![0, 0, 0]) ((ieee 23 (-149)).exactPt (beyond2 1)) = 2 ^ 24 + 8192 := by
  obtain ⟨T, h1, h2⟩ := Outcome.exists_of_check (x := KdTree.make (euclideanTag F32 3) (metricL2Sq F32 3)
    f32Num beyond2 2 (Ref.optsSliding F32 3) 10)
    (p := fun T => decide ((T.searchNn ![0, 0, 0] ⟨9, 0⟩).index = 0)) (by decide +kernel)
  exact ⟨T, h1, of_decide_eq_true h2, by decide +kernel, by decide +kernel⟩

end Pico.Props
