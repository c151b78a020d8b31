import Verif.Proof.LowFinal
import Verif.Props.Cover
import Verif.Props.ApproxError
import Verif.Props.TrueDistance

/-!
# C94: the cover tree in floating point arithmetic

The searches prune a node when `max()` is not larger than the distance to its point minus the largest distance
below it. With rounded distances and a rounded difference this lower bound can exceed the distance of a point.
-/

set_option linter.unusedSectionVars false

namespace Pico.Props

open Pico Spec

section
variable {K : Type} [Field K] [LinearOrder K] [IsStrictOrderedRing K] {R : Rounding K} {d : Nat} {L : Type}

/-- What the searches of a cover tree give when they may lose the summand `s`; `dist i` is the computed distance of
point `i`. -/
structure CoverUpTo (sorter : StdSort (CNode L R.F × R.F)) (fuel : Nat) (T : CoverTree R.F d L) (q : Pt R.F d)
    (n : Nat) (dist : Nat → R.F) (s big : K) : Prop where
  /-- No point is nearer than the returned one by more than `s`. -/
  nn : (∀ i < n, (dist i).1 + s < big) → ∀ prior, ∃ i < n, T.searchNn sorter fuel q prior = .ok ⟨i, dist i⟩ ∧
    ∀ j < n, (dist i).1 ≤ (dist j).1 + s
  /-- The neighbors are sorted and different, and no point left out is nearer by more than `s`. -/
  knn : (∀ i < n, (dist i).1 + s < big) → ∀ k prior, 0 < k → ∃ out rest : List Nat,
    T.searchKnn sorter fuel q k prior = .ok (out.map fun i => ⟨i, dist i⟩) ∧ out.length = min k n ∧
    (out.Pairwise fun i j => dist i ≤ dist j) ∧ (out ++ rest).Perm (List.range n) ∧
    ∀ i ∈ out, ∀ j ∈ rest, (dist i).1 ≤ (dist j).1 + s
  /-- Everything returned is inside the radius; everything that is inside by more than `s` is returned. -/
  radius : ∀ sorter' r prior sort, ∃ out, T.searchRadius sorter fuel sorter' q r prior sort = .ok out ∧
    (out.map Neighbor.index).Nodup ∧ (∀ a ∈ out, a.index < n ∧ a.distance = dist a.index ∧ dist a.index < r) ∧
    ∀ i < n, (dist i).1 + s < r.1 → ⟨i, dist i⟩ ∈ out
  /-- The approximate searches store `dist i * (1 / e)`. -/
  nnApprox : (∀ i < n, (dist i).1 + s < big) → ∀ e : R.F, 1 ≤ e.1 → ∀ prior, ∃ i < n,
    T.searchNnApprox sorter fuel q e prior = .ok ⟨i, dist i * (1 / e)⟩ ∧
    ∀ j < n, (dist i * (1 / e)).1 ≤ (dist j).1 + s
  knnApprox : (∀ i < n, (dist i).1 + s < big) → ∀ e : R.F, 1 ≤ e.1 → ∀ k prior, 0 < k → ∃ out rest : List Nat,
    T.searchKnnApprox sorter fuel q k e prior = .ok (out.map fun i => ⟨i, dist i * (1 / e)⟩) ∧
    out.length = min k n ∧ (out.Pairwise fun i j => dist i * (1 / e) ≤ dist j * (1 / e)) ∧
    (out ++ rest).Perm (List.range n) ∧ ∀ i ∈ out, ∀ j ∈ rest, (dist i * (1 / e)).1 ≤ (dist j).1 + s
  radiusApprox : ∀ e : R.F, 1 ≤ e.1 → ∀ sorter' r prior sort, ∃ out,
    T.searchRadiusApprox sorter fuel sorter' q r e prior sort = .ok out ∧ (out.map Neighbor.index).Nodup ∧
    (∀ a ∈ out, a.index < n ∧ a.distance = dist a.index * (1 / e) ∧ dist a.index < r) ∧
    ∀ i < n, (dist i).1 + s < (r * (1 / e)).1 → ⟨i, dist i * (1 / e)⟩ ∈ out

variable (B : Leveling R.F L) (P : StdPart (CNode L Unit)) (M : Metric R.F d) (N : Num R.F) (pts : Nat → Pt R.F d)
variable (n : Nat) (hn : 0 < n) (indices : List Nat) (hi : indices.Perm (List.range n)) (fuel : Nat)
variable {T : CoverTree R.F d L} (hT : CoverTree.make B P M N pts n indices fuel = .ok T)
variable (sorter : StdSort (CNode L R.F × R.F)) (fuel' : Nat) (hf : n ≤ fuel') (q : Pt R.F d) {s : K}
include hn hi hT hf

/-- C94 (partial): whatever the leveling, the insertion order and the rounding, the searches of a cover tree lose at
most the summand `s`, when `s` bounds by how much a computed lower bound of a node can exceed the distance of a point
below it. -/
theorem c94_partial (h1 : R.rd 1 = 1) (hs : 0 ≤ s) (hnn : ∀ i, 0 ≤ (M.dist q (pts i)).1)
    (hslack : ∀ m < n, ∀ p < n, (M.dist q (pts m) - M.dist (pts m) (pts p)).1 ≤ (M.dist q (pts p)).1 + s) :
    CoverUpTo sorter fuel' T q n (fun i => M.dist q (pts i)) s N.big.1 := by
  obtain ⟨rfl, rfl, rfl, rfl, hS⟩ := CoverTree.make_sound B P M N pts n hn indices hi fuel hT
  set dist : Nat → R.F := fun i => T.metric.dist q (T.pts i) with hdist
  set Low : R.F → Nat → Prop := fun x i => x.1 ≤ (dist i).1 + s with hLow
  have hself : ∀ i, Low (dist i) i := fun i => le_add_of_nonneg_right hs
  have hmono : ∀ x y i, x ≤ y → Low y i → Low x i := fun x y i h g => ((R.le_iff _ _).1 h).trans g
  have hL : Cover.LowOk dist (fun i j => T.metric.dist (T.pts i) (T.pts j)) (· < T.n) Low := by
    refine ⟨hself, hmono, fun m p x hm hp hx => ?_⟩
    refine le_trans ?_ (hslack m hm p hp)
    rw [R.val_sub, R.val_sub]
    exact R.mono _ _ (sub_le_sub_left ((R.le_iff _ _).1 hx) _)
  have hbig : (∀ i < T.n, (dist i).1 + s < T.num.big.1) → ∀ i < T.n, ¬ Low T.num.big i :=
    fun h i hi => not_le.2 (h i hi)
  have hst : ∀ e : R.F, 1 ≤ e.1 → ∀ i, Low (dist i * (1 / e)) i := fun e he i =>
    hmono _ _ _ (stored_le h1 he (hnn i)) (hself i)
  have hlen : ∀ k (knn : List (Neighbor R.F)), (knn.take (min k T.n) ++
      List.replicate (min k T.n - knn.length) (⟨0, 0⟩ : Neighbor R.F)).length = min k T.n := by
    intro k knn
    simp only [List.length_append, List.length_take, List.length_replicate]
    omega
  refine ⟨?_, ?_, ?_, ?_, ?_, ?_⟩
  · intro hb prior
    obtain ⟨t, g1, vis, skip, hp, rfl, hk⟩ := hS.low sorter fuel' hf q hL nnVisitor (fun _ => True)
      (nnInit T.num prior) (fun s i _ hs => shrinks_nn dist s i trivial hs) trivial
    obtain ⟨i, g2, g3, g4⟩ := low_nn hself hmono hp (hbig hb) hn prior hk
    exact ⟨i, g2, by unfold CoverTree.searchNn; rw [g1]; exact congrArg Outcome.ok g3, g4⟩
  · intro hb k prior hk0
    set buf := prior.take (min k T.n) ++ List.replicate (min k T.n - prior.length) (⟨0, 0⟩ : Neighbor R.F)
      with hbuf
    have hl : buf.length = min k T.n := hlen k prior
    have hlt : ∀ i < T.n, dist i < T.num.big := fun i hi =>
      lt_of_not_ge fun hc => hbig hb i hi (hmono _ _ _ hc (hself i))
    obtain ⟨s', Inv, hs', hI, hV⟩ := knnInit_shrinks (dist := dist) hlt (buf := buf) (by omega)
    obtain ⟨t, g1, vis, skip, hp, rfl, hk⟩ := hS.low sorter fuel' hf q hL (knnVisitor T.num) Inv s' hV hI
    obtain ⟨out, rest, g2, g3, g4⟩ := low_knn hself hmono hp (hbig hb) (buf := buf) (by omega) (by omega) hs' hk
    refine ⟨out, rest, ?_, by rw [g3, hl], g4⟩
    unfold CoverTree.searchKnn CoverTree.searchKnnRange
    rw [← hbuf, hs']
    simp only [Outcome.bind, g1]
    exact congrArg Outcome.ok g2
  · intro sorter' r prior sort
    obtain ⟨t, g1, vis, skip, hp, rfl, hk⟩ := hS.low sorter fuel' hf q hL (radiusVisitor r) (fun _ => True)
      (radiusInit prior) (fun s i _ hs => shrinks_radius dist r s i trivial hs) trivial
    obtain ⟨g2, g3, g4⟩ := low_radius hself hmono hp r prior hk
    set t := visitAll (radiusVisitor r) dist vis (radiusInit prior)
    have hperm : (if sort then sorter'.sort Neighbor.lt t else t).Perm t := by
      cases sort with
      | false => exact List.Perm.refl _
      | true => exact sorter'.sort_perm _ _ strictWeak_neighborLt
    refine ⟨if sort then sorter'.sort Neighbor.lt t else t, ?_, ?_, ?_, ?_⟩
    · unfold CoverTree.searchRadius
      rw [g1]
      rfl
    · exact ((hperm.map _).nodup_iff).2 g2
    · exact fun a ha => g3 a (hperm.subset ha)
    · exact fun i hi h => hperm.symm.subset (g4 i hi (not_le.2 h))
  · intro hb e he prior
    obtain ⟨t, g1, vis, skip, hp, rfl, hk⟩ := hS.low sorter fuel' hf q hL (approxNnVisitor e) (fun _ => True)
      (nnInit T.num prior) (fun s i _ hs => shrinks_nn (fun i => dist i * (1 / e)) s i trivial hs) trivial
    obtain ⟨i, g2, g3, g4⟩ := low_nn (hst e he) hmono hp (hbig hb) hn prior hk
    exact ⟨i, g2, by unfold CoverTree.searchNnApprox; rw [g1]; exact congrArg Outcome.ok g3, g4⟩
  · intro hb e he k prior hk0
    set buf := prior.take (min k T.n) ++ List.replicate (min k T.n - prior.length) (⟨0, 0⟩ : Neighbor R.F)
      with hbuf
    have hl : buf.length = min k T.n := hlen k prior
    have hlt : ∀ i < T.n, dist i * (1 / e) < T.num.big := fun i hi =>
      lt_of_not_ge fun hc => hbig hb i hi (hmono _ _ _ hc (hst e he i))
    obtain ⟨s', Inv, hs', hI, hV⟩ := knnInit_shrinks (dist := fun i => dist i * (1 / e)) hlt (buf := buf)
      (by omega)
    obtain ⟨t, g1, vis, skip, hp, rfl, hk⟩ := hS.low sorter fuel' hf q hL (approxKnnVisitor T.num e) Inv s' hV hI
    obtain ⟨out, rest, g2, g3, g4⟩ := low_knn (hst e he) hmono hp (hbig hb) (buf := buf) (by omega) (by omega) hs'
      hk
    refine ⟨out, rest, ?_, by rw [g3, hl], g4⟩
    unfold CoverTree.searchKnnApprox CoverTree.searchKnnApproxRange
    rw [← hbuf, hs']
    simp only [Outcome.bind, g1]
    exact congrArg Outcome.ok g2
  · intro e he sorter' r prior sort
    obtain ⟨t, g1, vis, skip, hp, rfl, hk⟩ := hS.low sorter fuel' hf q hL (approxRadiusVisitor e r) (fun _ => True)
      (radiusInit prior) (fun s i _ hs => shrinks_radius (fun i => dist i * (1 / e)) (r * (1 / e)) s i trivial hs)
      trivial
    obtain ⟨g2, g3, g4⟩ := low_radius (hst e he) hmono hp (r * (1 / e)) prior hk
    set t := visitAll (approxRadiusVisitor e r) dist vis (radiusInit prior)
    change (t.map Neighbor.index).Nodup at g2
    change ∀ a ∈ t, _ at g3
    change ∀ i < T.n, _ → _ ∈ t at g4
    have hperm : (if sort then sorter'.sort Neighbor.lt t else t).Perm t := by
      cases sort with
      | false => exact List.Perm.refl _
      | true => exact sorter'.sort_perm _ _ strictWeak_neighborLt
    refine ⟨if sort then sorter'.sort Neighbor.lt t else t, ?_, ?_, ?_, ?_⟩
    · unfold CoverTree.searchRadiusApprox
      rw [g1]
      rfl
    · exact ((hperm.map _).nodup_iff).2 g2
    · intro a ha
      obtain ⟨g5, g6, g7⟩ := g3 a (hperm.subset ha)
      refine ⟨g5, g6, lt_of_not_ge fun hc => ?_⟩
      have h4 : r.1 * (1 / e : R.F).1 ≤ (dist a.index).1 * (1 / e : R.F).1 :=
        mul_le_mul_of_nonneg_right ((R.le_iff _ _).1 hc) (ratio_le h1 he).1
      have h5 := R.mono _ _ h4
      rw [← R.val_mul, ← R.val_mul, ← R.le_iff] at h5
      exact absurd g7 (not_lt.2 h5)
    · exact fun i hi h => hperm.symm.subset (g4 i hi (not_le.2 h))

end

/-! ### How large the slack is -/

section
variable {K : Type} [Field K] [LinearOrder K] [IsStrictOrderedRing K] {R : Rounding K} {d : Nat} {u : K}

/-- When computed distances of at most `W` satisfy the triangle inequality up to the factor `c`, the slack is
`(2 (c - 1) + u) W`. -/
theorem slack_of_triangle (h : R.Error u) (hu0 : 0 ≤ u) {c W : K} (hc : 1 ≤ c) {a b x : R.F} (ha0 : 0 ≤ a.1)
    (hx0 : 0 ≤ x.1) (ha : a.1 ≤ W) (hb : b.1 ≤ W) (hx : x.1 ≤ W) (ht : a.1 ≤ c * (b.1 + x.1)) :
    (a - x).1 ≤ b.1 + (2 * (c - 1) + u) * W := by
  have h1 : |(a - x).1 - (a.1 - x.1)| ≤ u * |a.1 - x.1| := by
    have := h a.1 (-x.1) a.2 (by rw [R.odd, x.2])
    rw [R.val_sub]
    simpa [sub_eq_add_neg] using this
  have h2 : |a.1 - x.1| ≤ W := abs_le.2 ⟨by linarith, by linarith⟩
  have h3 := (abs_le.1 (h1.trans (mul_le_mul_of_nonneg_left h2 hu0))).2
  have h4 : (c - 1) * (b.1 + x.1) ≤ (c - 1) * (W + W) :=
    mul_le_mul_of_nonneg_left (add_le_add hb hx) (by linarith)
  linarith

theorem one_le_factor (hu0 : 0 ≤ u) (hu1 : u < 1) (k : Nat) : 1 ≤ ((1 + u) / (1 - u)) ^ k := by
  apply one_le_pow₀
  rw [le_div_iff₀ (by linarith)]
  linarith

/-- `lo * a ≤ hi * y` as a quotient. -/
theorem le_factor (hu1 : u < 1) {k : Nat} {a y : K} (h : (1 - u) ^ k * a ≤ (1 + u) ^ k * y) :
    a ≤ ((1 + u) / (1 - u)) ^ k * y := by
  have h0 : 0 < (1 - u) ^ k := pow_pos (by linarith) k
  rw [div_pow, div_mul_eq_mul_div, le_div_iff₀ h0, mul_comm]
  exact h

/-- Rounded `metric_l1` satisfies the triangle inequality up to a factor. -/
theorem nearTriangle_l1 (h : R.Error u) (hu0 : 0 ≤ u) (hu1 : u < 1) (q m p : Pt R.F d) :
    ((metricL1 R.F d).dist q m).1 ≤ ((1 + u) / (1 - u)) ^ (d + 1) *
      (((metricL1 R.F d).dist q p).1 + ((metricL1 R.F d).dist m p).1) := by
  have hlo : 0 ≤ (1 - u) ^ (d + 1) := pow_nonneg (by linarith) _
  have hhi : 0 ≤ (1 + u) ^ (d + 1) := pow_nonneg (by linarith) _
  refine le_factor hu1 ?_
  have h1 := (accurate_l1 h hu0 hu1.le q m).2
  have h2 := (accurate_l1 h hu0 hu1.le q p).1
  have h3 := (accurate_l1 h hu0 hu1.le m p).1
  have h4 : l1 (R.exactPt q) (R.exactPt m) ≤ l1 (R.exactPt q) (R.exactPt p) + l1 (R.exactPt m) (R.exactPt p) := by
    unfold l1
    rw [← Finset.sum_add_distrib]
    refine Finset.sum_le_sum fun j _ => ?_
    rw [abs_sub_comm (R.exactPt m j)]
    exact abs_sub_le _ _ _
  have h5 := mul_le_mul_of_nonneg_left h4 (mul_nonneg hlo hhi)
  have h6 := mul_le_mul_of_nonneg_left h1 hlo
  have h7 := mul_le_mul_of_nonneg_left h2 hhi
  have h8 := mul_le_mul_of_nonneg_left h3 hhi
  nlinarith

/-- What is needed of `std::sqrt` at `x`: the relative error is at most `u` (stated for the squares). -/
structure SqrtError (sqrt : R.F → R.F) (u : K) (x : R.F) : Prop where
  nonneg : 0 ≤ (sqrt x).1
  lower : (1 - u) ^ 2 * x.1 ≤ (sqrt x).1 ^ 2
  upper : (sqrt x).1 ^ 2 ≤ (1 + u) ^ 2 * x.1

/-- Two points for which `metric_l2` is computed with small relative errors: no square underflows. -/
structure L2Ok (sqrt : R.F → R.F) (u : K) (x y : Pt R.F d) : Prop where
  square : ∀ j, R.SquareError u (x j - y j).1
  sqrt : SqrtError sqrt u ((metricL2Sq R.F d).dist x y)

theorem accurate_root (h : R.Error u) (hu0 : 0 ≤ u) (hu1 : u < 1) {sqrt : R.F → R.F} {x y : Pt R.F d}
    (hxy : L2Ok sqrt u x y) :
    ((1 - u) ^ (d / 2 + 3)) ^ 2 * l2Sq (R.exactPt x) (R.exactPt y) ≤ ((metricL2 sqrt d).dist x y).1 ^ 2 ∧
      ((metricL2 sqrt d).dist x y).1 ^ 2 ≤ ((1 + u) ^ (d / 2 + 3)) ^ 2 * l2Sq (R.exactPt x) (R.exactPt y) := by
  have e : (metricL2 sqrt d).dist x y = sqrt ((metricL2Sq R.F d).dist x y) := rfl
  have h0 : 0 ≤ l2Sq (R.exactPt x) (R.exactPt y) := Finset.sum_nonneg fun j _ => sq_nonneg _
  obtain ⟨a, b⟩ := accurate_l2 h hu0 hu1.le x y hxy.square
  have hk : d + 5 ≤ (d / 2 + 3) * 2 := by omega
  rw [e, ← pow_mul, ← pow_mul]
  constructor
  · refine le_trans ?_ hxy.sqrt.lower
    refine le_trans ?_ (mul_le_mul_of_nonneg_left a (pow_nonneg (by linarith) 2))
    rw [← mul_assoc, ← pow_add]
    refine mul_le_mul_of_nonneg_right ?_ h0
    exact pow_le_pow_of_le_one (by linarith) (by linarith) (by omega)
  · refine hxy.sqrt.upper.trans ?_
    refine (mul_le_mul_of_nonneg_left b (pow_nonneg (by linarith) 2)).trans ?_
    rw [← mul_assoc, ← pow_add]
    refine mul_le_mul_of_nonneg_right ?_ h0
    exact pow_le_pow_right₀ (by linarith) (by omega)

/-- Rounded `metric_l2` satisfies the triangle inequality up to a factor. -/
theorem nearTriangle_l2 (h : R.Error u) (hu0 : 0 ≤ u) (hu1 : u < 1) {sqrt : R.F → R.F} {q m p : Pt R.F d}
    (h1 : L2Ok sqrt u q m) (h2 : L2Ok sqrt u q p) (h3 : L2Ok sqrt u m p) :
    ((metricL2 sqrt d).dist q m).1 ≤ ((1 + u) / (1 - u)) ^ (d / 2 + 3) *
      (((metricL2 sqrt d).dist q p).1 + ((metricL2 sqrt d).dist m p).1) := by
  have e1 := (accurate_root h hu0 hu1 h1).2
  have e2 := (accurate_root h hu0 hu1 h2).1
  have e3 := (accurate_root h hu0 hu1 h3).1
  have n1 : 0 ≤ ((metricL2 sqrt d).dist q m).1 := h1.sqrt.nonneg
  have n2 : 0 ≤ ((metricL2 sqrt d).dist q p).1 := h2.sqrt.nonneg
  have n3 : 0 ≤ ((metricL2 sqrt d).dist m p).1 := h3.sqrt.nonneg
  refine le_factor hu1 ?_
  set lo := (1 - u) ^ (d / 2 + 3)
  set hi := (1 + u) ^ (d / 2 + 3)
  set a := ((metricL2 sqrt d).dist q m).1
  set b := ((metricL2 sqrt d).dist q p).1
  set c := ((metricL2 sqrt d).dist m p).1
  have hlo : 0 ≤ lo := pow_nonneg (by linarith) _
  have hhi : 0 ≤ hi := pow_nonneg (by linarith) _
  set x := R.exactPt q
  set y := R.exactPt p
  set z := R.exactPt m
  set t := ∑ j, (x j - y j) * (y j - z j) with ht
  have cs : t ^ 2 ≤ l2Sq x y * l2Sq z y := by
    have := Finset.sum_mul_sq_le_sq_mul_sq Finset.univ (fun j => x j - y j) (fun j => y j - z j)
    have e : l2Sq z y = ∑ j, (y j - z j) ^ 2 := Finset.sum_congr rfl fun j _ => by ring
    rw [e]
    exact this
  have ex : l2Sq x z = l2Sq x y + 2 * t + l2Sq z y := by
    simp only [l2Sq, ht]
    rw [Finset.mul_sum, ← Finset.sum_add_distrib, ← Finset.sum_add_distrib]
    exact Finset.sum_congr rfl fun j _ => by ring
  have hA : 0 ≤ l2Sq x y := Finset.sum_nonneg fun j _ => sq_nonneg _
  have hC : 0 ≤ l2Sq z y := Finset.sum_nonneg fun j _ => sq_nonneg _
  have ht' : lo ^ 2 * t ≤ b * c := by
    refine abs_le_of_sq_le_sq' ?_ (mul_nonneg n2 n3) |>.2
    calc (lo ^ 2 * t) ^ 2 = lo ^ 2 * lo ^ 2 * t ^ 2 := by ring
      _ ≤ lo ^ 2 * lo ^ 2 * (l2Sq x y * l2Sq z y) := mul_le_mul_of_nonneg_left cs (by positivity)
      _ = (lo ^ 2 * l2Sq x y) * (lo ^ 2 * l2Sq z y) := by ring
      _ ≤ b ^ 2 * c ^ 2 := mul_le_mul e2 e3 (by positivity) (by positivity)
      _ = (b * c) ^ 2 := by ring
  refine abs_le_of_sq_le_sq' ?_ (mul_nonneg hhi (add_nonneg n2 n3)) |>.2
  calc (lo * a) ^ 2 = lo ^ 2 * a ^ 2 := by ring
    _ ≤ lo ^ 2 * (hi ^ 2 * l2Sq x z) := mul_le_mul_of_nonneg_left e1 (by positivity)
    _ = hi ^ 2 * (lo ^ 2 * l2Sq x y + lo ^ 2 * l2Sq z y + 2 * (lo ^ 2 * t)) := by rw [ex]; ring
    _ ≤ hi ^ 2 * (b ^ 2 + c ^ 2 + 2 * (b * c)) := mul_le_mul_of_nonneg_left (by linarith) (by positivity)
    _ = (hi * (b + c)) ^ 2 := by ring

variable {L : Type} (B : Leveling R.F L) (P : StdPart (CNode L Unit)) (N : Num R.F) (pts : Nat → Pt R.F d)
variable (n : Nat) (hn : 0 < n) (indices : List Nat) (hi : indices.Perm (List.range n)) (fuel : Nat)
variable (sorter : StdSort (CNode L R.F × R.F)) (fuel' : Nat) (hf : n ≤ fuel') (q : Pt R.F d) {W : K}
include hn hi hf

/-- C94 (partial, `metric_l1`): with a relative error of `u` per operation and computed distances of at most `W`. -/
theorem c94_l1_partial (h : R.Error u) (hu0 : 0 ≤ u) (hu1 : u < 1) (h1 : R.rd 1 = 1) {T : CoverTree R.F d L}
    (hT : CoverTree.make B P (metricL1 R.F d) N pts n indices fuel = .ok T)
    (hq : ∀ i < n, ((metricL1 R.F d).dist q (pts i)).1 ≤ W)
    (hW : ∀ i < n, ∀ j < n, ((metricL1 R.F d).dist (pts i) (pts j)).1 ≤ W) :
    CoverUpTo sorter fuel' T q n (fun i => (metricL1 R.F d).dist q (pts i))
      ((2 * (((1 + u) / (1 - u)) ^ (d + 1) - 1) + u) * W) N.big.1 := by
  have hc := one_le_factor hu0 hu1 (d + 1)
  have hnn : ∀ x y, 0 ≤ ((metricL1 R.F d).dist x y).1 := fun x y =>
    dist_nonneg h hu0 hu1.le (axis_l1 R.laws) x (fun _ => y) 0
  have hW0 : 0 ≤ W := (hnn _ _).trans (hq 0 hn)
  refine c94_partial B P _ N pts n hn indices hi fuel hT sorter fuel' hf q h1 ?_ (fun i => hnn _ _) ?_
  · exact mul_nonneg (by linarith) hW0
  · intro m hm p hp
    exact slack_of_triangle h hu0 hc (hnn _ _) (hnn _ _) (hq m hm) (hq p hp) (hW m hm p hp)
      (nearTriangle_l1 h hu0 hu1 q (pts m) (pts p))

/-- C94 (partial, `metric_l2`, the default): if moreover no square underflows and the square roots are rounded
correctly. -/
theorem c94_l2_partial (h : R.Error u) (hu0 : 0 ≤ u) (hu1 : u < 1) (h1 : R.rd 1 = 1) {sqrt : R.F → R.F}
    (hsq : ∀ x, 0 ≤ (sqrt x).1) {T : CoverTree R.F d L}
    (hT : CoverTree.make B P (metricL2 sqrt d) N pts n indices fuel = .ok T)
    (hok : ∀ i < n, L2Ok sqrt u q (pts i) ∧ ∀ j < n, L2Ok sqrt u (pts i) (pts j))
    (hq : ∀ i < n, ((metricL2 sqrt d).dist q (pts i)).1 ≤ W)
    (hW : ∀ i < n, ∀ j < n, ((metricL2 sqrt d).dist (pts i) (pts j)).1 ≤ W) :
    CoverUpTo sorter fuel' T q n (fun i => (metricL2 sqrt d).dist q (pts i))
      ((2 * (((1 + u) / (1 - u)) ^ (d / 2 + 3) - 1) + u) * W) N.big.1 := by
  have hc := one_le_factor hu0 hu1 (d / 2 + 3)
  have hnn : ∀ x y : Pt R.F d, 0 ≤ ((metricL2 sqrt d).dist x y).1 := fun x y => hsq _
  have hW0 : 0 ≤ W := (hnn _ _).trans (hq 0 hn)
  refine c94_partial B P _ N pts n hn indices hi fuel hT sorter fuel' hf q h1 ?_ (fun i => hnn _ _) ?_
  · exact mul_nonneg (by linarith) hW0
  · intro m hm p hp
    exact slack_of_triangle h hu0 hc (hnn _ _) (hnn _ _) (hq m hm) (hq p hp) (hW m hm p hp)
      (nearTriangle_l2 h hu0 hu1 (hok m hm).1 (hok p hp).1 ((hok m hm).2 p hp))

end

/-! ### A wrong answer -/

/-- Base two: levels are integers or minus infinity, the logarithms are exact. -/
def base2F32 : Leveling F32 (WithBot ℤ) where
  cover l := match l with
    | none => 0
    | some n => (ieee 23 (-149)).ofK (2 ^ n)
  ceilLevel x := if x.1 ≤ 0 then ⊥ else ((Int.clog 2 x.1 : ℤ) : WithBot ℤ)
  floorLevel x := if x.1 ≤ 0 then ⊥ else ((Int.log 2 x.1 : ℤ) : WithBot ℤ)
  zero := ((0 : ℤ) : WithBot ℤ)
  unset := ((0 : ℤ) : WithBot ℤ)
  up l := WithBot.map (· + 1) l
  down l := WithBot.map (· - 1) l
  lt := base2.lt
  twice x := x * (ieee 23 (-149)).ofK 2

/-- `-9/10`, `-2^28`, `2^25` and `1 + 2^-23`. -/
def farAway : Nat → Pt F32 1 := fun i _ =>
  (ieee 23 (-149)).ofK ([-9 / 10, -2 ^ 28, 2 ^ 25, 1 + 1 / 2 ^ 23].getD i 0)

/-- `1 - 2^-24`. -/
def justBelow : Pt F32 1 := fun _ => (ieee 23 (-149)).ofK (1 - 1 / 2 ^ 24)

def farTree : Outcome (CoverTree F32 1 (WithBot ℤ)) :=
  CoverTree.make base2F32 (stablePart _) (metricL1 F32 1) f32Num farAway 4 [0, 1, 2, 3] 100

/-- C94 is false: with `float` coordinates `search_nn` returns point 0 at distance 1.9 although the distance of point
3 is `3 / 2^24`, less than a ten millionth of that. Point 3 lies below point 2 (at `2^25`), and the computed lower
bound for it is 2: `2^25 - (1 - 2^-24)` is rounded up and `2^25 - (1 + 2^-23)` is rounded down. -/
theorem c94_false : ∃ T r, farTree = .ok T ∧ T.searchNn (Ref.sorter _) 4 justBelow ⟨0, 0⟩ = .ok r ∧
    10 ^ 7 * ((metricL1 F32 1).dist justBelow (farAway 3)).1 < r.distance.1 := by
  obtain ⟨T, h1, h2⟩ := Outcome.exists_of_check (x := farTree) (p := fun T =>
    (T.searchNn (Ref.sorter _) 4 justBelow ⟨0, 0⟩).check fun r =>
      decide (10 ^ 7 * ((metricL1 F32 1).dist justBelow (farAway 3)).1 < r.distance.1)) (by decide +kernel)
  obtain ⟨r, h3, h4⟩ := Outcome.exists_of_check h2
  exact ⟨T, r, h1, h3, of_decide_eq_true h4⟩

/-- The hypotheses of C94 can be met, by the same points: distances are below `2^29`, so that the searches lose less
than 289. -/
example : ∃ T, farTree = .ok T ∧ CoverUpTo (Ref.sorter _) 4 T justBelow 4
    (fun i => (metricL1 F32 1).dist justBelow (farAway i))
    ((2 * (((1 + 1 / 2 ^ 24) / (1 - 1 / 2 ^ 24)) ^ 2 - 1) + 1 / 2 ^ 24) * 2 ^ 29) f32Num.big.1 ∧
    (2 * (((1 + 1 / 2 ^ 24) / (1 - 1 / 2 ^ 24)) ^ 2 - 1) + 1 / 2 ^ 24 : ℚ) * 2 ^ 29 < 289 := by
  obtain ⟨T, h1, -⟩ := Outcome.exists_of_check (x := farTree) (p := fun _ => true) (by decide +kernel)
  exact ⟨T, h1, c94_l1_partial base2F32 (stablePart _) f32Num farAway 4 (by decide) [0, 1, 2, 3] (by decide) 100
    (Ref.sorter _) 4 le_rfl justBelow (ieee_relative 23 (-149)) (by norm_num) (by norm_num) (by decide +kernel) h1
    (by decide +kernel) (by decide +kernel), by norm_num⟩

/-- A square root for perfect squares. -/
def squareRoot (x : F32) : F32 := (ieee 23 (-149)).ofK (Nat.sqrt x.1.num.toNat)

/-- Multiples of `(3, 4)`. -/
def onRay : Nat → Pt F32 2 := fun i => ![f32 (3 * [0, 7, 2, 11, 5].getD i 0), f32 (4 * [0, 7, 2, 11, 5].getD i 0)]

theorem l2Ok_of {x y : Pt F32 2} (h : (∀ j, |(ieee 23 (-149)).rd ((x j - y j).1 * (x j - y j).1) -
      (x j - y j).1 * (x j - y j).1| ≤ 1 / 2 ^ 24 * ((x j - y j).1 * (x j - y j).1)) ∧
    0 ≤ (squareRoot ((metricL2Sq F32 2).dist x y)).1 ∧
    (1 - 1 / 2 ^ 24) ^ 2 * ((metricL2Sq F32 2).dist x y).1 ≤ (squareRoot ((metricL2Sq F32 2).dist x y)).1 ^ 2 ∧
    (squareRoot ((metricL2Sq F32 2).dist x y)).1 ^ 2 ≤ (1 + 1 / 2 ^ 24) ^ 2 * ((metricL2Sq F32 2).dist x y).1) :
    L2Ok squareRoot (1 / 2 ^ 24) x y :=
  ⟨h.1, h.2.1, h.2.2.1, h.2.2.2⟩

/-- The same for `metric_l2`: five points in the plane. -/
example : ∃ T, CoverTree.make base2F32 (stablePart _) (metricL2 squareRoot 2) f32Num onRay 5 [0, 1, 2, 3, 4] 100
      = .ok T ∧
    (∃ i < 5, T.searchNn (Ref.sorter _) 5 ![f32 9, f32 12] ⟨0, 0⟩ = .ok ⟨i, (metricL2 squareRoot 2).dist
      ![f32 9, f32 12] (onRay i)⟩ ∧ ∀ j < 5, ((metricL2 squareRoot 2).dist ![f32 9, f32 12] (onRay i)).1 ≤
        ((metricL2 squareRoot 2).dist ![f32 9, f32 12] (onRay j)).1 + 1 / 2 ^ 10) := by
  obtain ⟨T, h1, -⟩ := Outcome.exists_of_check (x := CoverTree.make base2F32 (stablePart _) (metricL2 squareRoot 2)
    f32Num onRay 5 [0, 1, 2, 3, 4] 100) (p := fun _ => true) (by decide +kernel)
  have h := c94_l2_partial base2F32 (stablePart _) f32Num onRay 5 (by decide) [0, 1, 2, 3, 4] (by decide) 100
    (Ref.sorter _) 5 le_rfl ![f32 9, f32 12] (ieee_relative 23 (-149)) (by norm_num) (by norm_num)
    (by decide +kernel)
    (sqrt := squareRoot) (fun x => by
      have := (ieee 23 (-149)).mono 0 (Nat.sqrt x.1.num.toNat) (Nat.cast_nonneg _)
      rwa [(ieee 23 (-149)).rd_zero] at this) h1
    (fun i hi => ⟨l2Ok_of (by revert i; decide +kernel),
      fun j hj => l2Ok_of (by revert j i; decide +kernel)⟩)
    (W := 100) (by decide +kernel) (by decide +kernel)
  refine ⟨T, h1, ?_⟩
  obtain ⟨i, hi, h2, h3⟩ := h.nn (by decide +kernel) ⟨0, 0⟩
  refine ⟨i, hi, h2, fun j hj => (h3 j hj).trans ?_⟩
  have : (2 * (((1 + 1 / 2 ^ (23 + 1)) / (1 - 1 / 2 ^ (23 + 1))) ^ (2 / 2 + 3) - 1) + 1 / 2 ^ (23 + 1) : ℚ) * 100 ≤
    1 / 2 ^ 10 := by norm_num
  linarith

end Pico.Props
