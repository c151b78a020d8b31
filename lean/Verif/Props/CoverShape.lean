import Verif.Proof.CoverShape
import Verif.Props.CoverInv

/-!
# C131: the height and the degree of a cover tree do not depend on the number of points
-/

namespace Pico.Props

open Spec

section
variable {K : Type} [Field K] [LinearOrder K] [IsStrictOrderedRing K]
variable (P : StdPart (CNode (WithBot ℤ) Unit)) (fuel : Nat) (indices : List Nat)

/-- C131 (height): if the points are distinct and the largest distance is at most `base ^ n` times the smallest
one, then no path of a finished tree has more than `n + 3` nodes, whatever the number of points and the order of
insertion. The base is at least two. -/
theorem c131_height {b : K} (hb : 2 ≤ b) {cl fl : K → ℤ} (hl : IsLogs b cl fl) {dist : Nat → Nat → K}
    (hs : ∀ i j, dist i j = dist j i) (h0 : ∀ i, dist i i = 0)
    (ht : ∀ i j k, dist i k ≤ dist i j + dist j k) (hne : indices ≠ []) (hnd : indices.Nodup) {s : K} (hs0 : 0 < s)
    {n : Nat} (hmin : ∀ i ∈ indices, ∀ j ∈ indices, i ≠ j → s ≤ dist i j)
    (hmax : ∀ i ∈ indices, ∀ j ∈ indices, dist i j ≤ s * b ^ n) {t : CNode (WithBot ℤ) K}
    (h : Cover.build (Leveling.exact b cl fl) P dist fuel indices = .ok t) : levelCount t ≤ n + 3 := by
  have hb0 : 0 < b := by linarith
  have hpts : (points t).Perm indices := (Cover.build_points _ P dist fuel indices hne).of_ok h
  have hlev := (c65 P fuel indices b cl fl hs hne h).1
  have hcov := c66_partial P fuel indices hb hl hs h0 ht hne h
  have hsep : ∀ i ∈ points t, ∀ j ∈ points t, i ≠ j → s ≤ dist i j := fun i hi j hj =>
    hmin i (hpts.mem_iff.1 hi) j (hpts.mem_iff.1 hj)
  match indices, hne with
  | [i], _ =>
    have hp := hpts.length_eq
    obtain ⟨j, l, m, cs⟩ := t
    rw [points] at hp
    cases cs with
    | nil => simp [levelCount, levelCountList]
    | cons c cs =>
      exfalso
      obtain ⟨k, l', m', cs'⟩ := c
      simp [pointsList, points] at hp
  | i :: j :: rest, _ =>
    have hij : i ≠ j := by
      rintro rfl
      simp at hnd
    have hd0 : 0 < dist i j := hs0.trans_le (hmin i (by simp) j (by simp) hij)
    have hlow : ∃ k : ℤ, t.level = (k : WithBot ℤ) ∧ b ^ (k - 1) < b * (s * b ^ n) := by
      rw [Cover.build] at h
      cases h1 : Cover.insertAll (Leveling.exact b cl fl) P dist fuel (i :: j :: rest) with
      | ub => rw [h1] at h; simp [Outcome.bind] at h
      | oof => rw [h1] at h; simp [Outcome.bind] at h
      | ok u =>
        rw [h1] at h
        obtain ⟨-, k, hk, hlt⟩ := Cover.insertAll_low (P := P) hb hl hmax fuel i j rest (fun _ h => h) hd0 u h1
        have hu := ((Cover.insertAll_points (Leveling.exact b cl fl) P dist fuel (i :: j :: rest) (by simp)).of_ok h1).length_eq
        simp only [Outcome.bind] at h
        rw [Cover.bufferCopy_ok _ u 0 (by rw [Cover.size_eq_length, hu]; omega)] at h
        simp only [Outcome.ok.injEq] at h
        subst h
        refine ⟨k, ?_, hlt⟩
        cases u
        rw [Cover.updateMaxDistance]
        exact hk
    obtain ⟨k, hk, hlt⟩ := hlow
    refine Cover.levelCount_le (by linarith) hs0 (n + 2) t k hk hlev hcov (hpts.nodup_iff.2 hnd) hsep ?_
    have e : b ^ k = b ^ (k - 1) * b := by rw [zpow_sub_one₀ hb0.ne', inv_mul_cancel_right₀ hb0.ne']
    rw [e]
    have := mul_lt_mul_of_pos_right hlt hb0
    calc b ^ (k - 1) * b < b * (s * b ^ n) * b := this
      _ = s * b ^ (n + 2) := by ring

/-- C131 (depth of searches): a search calls itself no deeper than the tree has levels; more stack changes
nothing. -/
theorem c131_depth {α L σ : Type} [LinearOrder α] [Sub α] (sorter : StdSort (CNode L α × α)) (V : Visitor α σ)
    (dq : Nat → α) (t : CNode L α) (s : σ) (depth more : Nat) (h : levelCount t ≤ depth) :
    Cover.searchNearest sorter V dq depth t s = Cover.searchNearest sorter V dq (depth + more) t s :=
  Cover.searchNearest_levels sorter V dq more depth t s h

/-- C131 (degree): in a finished tree for a metric that is at least every difference of coordinates, and at most
`κ` times the largest one, no node has more than `(⌊2 base κ⌋ + 1) ^ dimension` children. Coinciding points are
allowed. -/
theorem c131_degree [FloorSemiring K] {d : Nat} {b κ : K} (hb : 2 ≤ b) (hκ : 0 < κ) {cl fl : K → ℤ} (hl : IsLogs b cl fl)
    {D : Pt K d → Pt K d → K} (hs : ∀ x y, D x y = D y x) (h0 : ∀ x, D x x = 0)
    (ht : ∀ x y z, D x z ≤ D x y + D y z) (h1 : ∀ x y j, |x j - y j| ≤ D x y)
    (h2 : ∀ x y m, 0 ≤ m → (∀ j, |x j - y j| ≤ m) → D x y ≤ κ * m) (pts : Nat → Pt K d) (hne : indices ≠ [])
    {t : CNode (WithBot ℤ) K}
    (h : Cover.build (Leveling.exact b cl fl) P (fun i j => D (pts i) (pts j)) fuel indices = .ok t) :
    AtMostChildren ((⌊2 * b * κ⌋₊ + 1) ^ d) t := by
  have hs' : ∀ i j, D (pts i) (pts j) = D (pts j) (pts i) := fun _ _ => hs _ _
  obtain ⟨hlev, hap⟩ := c65 P fuel indices b cl fl hs' hne h
  have hcov := c66_partial P fuel indices hb hl hs' (fun _ => h0 _) (fun _ _ _ => ht _ _ _) hne h
  have key : ∀ c : CNode (WithBot ℤ) K, (∀ m ∈ c.children, m.level = c.level.map (· - 1)) →
      (∀ p ∈ points c, D (pts c.index) (pts p) ≤ coverDistance b c.level) →
      (c.children.Pairwise fun a a' => coverDistance b a.level < D (pts a.index) (pts a'.index)) →
      c.children.length ≤ (⌊2 * b * κ⌋₊ + 1) ^ d := fun c k1 k2 k3 =>
    Cover.degree_le (by linarith) hκ h1 h2 hs pts c k1
      (fun m hm => k2 _ (Cover.child_mem hm (Cover.index_mem m))) k3
  have both : Everywhere (fun c : CNode (WithBot ℤ) K => (∀ m ∈ c.children, m.level = c.level.map (· - 1)) ∧
      (∀ p ∈ points c, D (pts c.index) (pts p) ≤ coverDistance b c.level) ∧
      (c.children.Pairwise fun a a' => coverDistance b a.level < D (pts a.index) (pts a'.index))) t :=
    Cover.everywhere_and hlev (Cover.everywhere_and hcov hap)
  exact everywhere_imp (fun c hc => key c hc.1 hc.2.1 hc.2.2) _ t le_rfl both

end

/-- C131 for `metric_l1`. -/
theorem c131_degree_l1 {K : Type} [Field K] [LinearOrder K] [IsStrictOrderedRing K] [FloorSemiring K] {d : Nat}
    (hd : 0 < d) {b : K} (hb : 2 ≤ b) {cl fl : K → ℤ} (hl : IsLogs b cl fl) (P : StdPart (CNode (WithBot ℤ) Unit))
    (fuel : Nat) (indices : List Nat) (hne : indices ≠ []) (pts : Nat → Pt K d) {t : CNode (WithBot ℤ) K}
    (h : Cover.build (Leveling.exact b cl fl) P (fun i j => (metricL1 K d).dist (pts i) (pts j)) fuel indices = .ok t) :
    AtMostChildren ((⌊2 * b * (d : K)⌋₊ + 1) ^ d) t := by
  have e : ∀ x y : Pt K d, (metricL1 K d).dist x y = ∑ j, |x j - y j| := fun x y => by
    simp only [metricL1, loopSum_eq, r1Distance, sabs_eq]
  refine c131_degree P fuel indices hb (by exact_mod_cast hd) hl c41_l1.comm (fun x => (c41_l1.zero x x).2 rfl)
    c41_l1.triangle (fun x y j => ?_) (fun x y m _ hm => ?_) pts hne h
  · rw [e]
    exact Finset.single_le_sum (f := fun j => |x j - y j|) (fun i _ => abs_nonneg _) (Finset.mem_univ j)
  · rw [e]
    calc ∑ j, |x j - y j| ≤ ∑ _j : Fin d, m := Finset.sum_le_sum fun j _ => hm j
      _ = (d : K) * m := by simp

/-- C131 for `metric_lpinf`. -/
theorem c131_degree_lpinf {K : Type} [Field K] [LinearOrder K] [IsStrictOrderedRing K] [FloorSemiring K] {d : Nat}
    (hd : 0 < d) {b : K} (hb : 2 ≤ b) {cl fl : K → ℤ} (hl : IsLogs b cl fl) (P : StdPart (CNode (WithBot ℤ) Unit))
    (fuel : Nat) (indices : List Nat) (hne : indices ≠ []) (pts : Nat → Pt K d) {t : CNode (WithBot ℤ) K}
    (h : Cover.build (Leveling.exact b cl fl) P (fun i j => (metricLPInf K d).dist (pts i) (pts j)) fuel indices =
      .ok t) : AtMostChildren ((⌊2 * b⌋₊ + 1) ^ d) t := by
  have := c131_degree P fuel indices hb one_pos hl (c41_lpinf hd).comm (fun x => ((c41_lpinf hd).zero x x).2 rfl)
    (c41_lpinf hd).triangle (fun x y j => (c12_distance hd x y).1 j) (fun x y m _ hm => by
      obtain ⟨j, hj⟩ := (c12_distance hd x y).2
      rw [← hj, one_mul]
      exact hm j) pts hne h
  rwa [mul_one] at this

/-- C131 for `metric_l2`, the default metric. -/
theorem c131_degree_l2 {d : Nat} (hd : 0 < d) {b : ℝ} (hb : 2 ≤ b) (P : StdPart (CNode (WithBot ℤ) Unit)) (fuel : Nat)
    (indices : List Nat) (hne : indices ≠ []) (pts : Nat → Pt ℝ d) {t : CNode (WithBot ℤ) ℝ}
    (h : Cover.build (Leveling.exact b (fun x => ⌈Real.log x / Real.log b⌉) (fun x => ⌊Real.log x / Real.log b⌋)) P
      (fun i j => (metricL2 Real.sqrt d).dist (pts i) (pts j)) fuel indices = .ok t) :
    AtMostChildren ((⌊2 * b * Real.sqrt d⌋₊ + 1) ^ d) t := by
  have e : ∀ x y : Pt ℝ d, (metricL2 Real.sqrt d).dist x y = Real.sqrt (∑ j, (x j - y j) ^ 2) := fun x y => by
    simp only [metricL2, loopSum_eq, squaredR1Distance, squared, pow_two]
  refine c131_degree P fuel indices hb (Real.sqrt_pos.2 (by exact_mod_cast hd)) (isLogs_real (by linarith)) c41_l2.comm
    (fun x => (c41_l2.zero x x).2 rfl) c41_l2.triangle (fun x y j => ?_) (fun x y m hm0 hm => ?_) pts hne h
  · rw [e]
    refine Real.abs_le_sqrt ?_
    exact Finset.single_le_sum (f := fun j => (x j - y j) ^ 2) (fun i _ => sq_nonneg _) (Finset.mem_univ j)
  · rw [e, Real.sqrt_le_left (mul_nonneg (Real.sqrt_nonneg _) hm0), mul_pow, Real.sq_sqrt (Nat.cast_nonneg d)]
    calc ∑ j, (x j - y j) ^ 2 ≤ ∑ _j : Fin d, m ^ 2 := Finset.sum_le_sum fun j _ => by
          rw [← sq_abs (x j - y j)]
          exact pow_le_pow_left₀ (abs_nonneg _) (hm j) 2
      _ = (d : ℝ) * m ^ 2 := by simp

/-- C131 (nearest neighbor with a stack of constant depth): under the hypotheses of C48 and C131, `n + 3` nested
calls are enough. -/
theorem c131_nn {K : Type} [Field K] [LinearOrder K] [IsStrictOrderedRing K] {d : Nat}
    {b : K} (hb : 2 ≤ b) {cl fl : K → ℤ} (hl : IsLogs b cl fl) (P : StdPart (CNode (WithBot ℤ) Unit)) (M : Metric K d)
    (hM : FullMetric M.dist (· = ·)) (N : Num K) (pts : Nat → Pt K d) (np : Nat) (hn : 0 < np) (indices : List Nat)
    (hi : indices.Perm (List.range np)) (fuel : Nat) {s : K} (hs0 : 0 < s) {n : Nat}
    (hmin : ∀ i < np, ∀ j < np, i ≠ j → s ≤ M.dist (pts i) (pts j))
    (hmax : ∀ i < np, ∀ j < np, M.dist (pts i) (pts j) ≤ s * b ^ n) {T : CoverTree K d (WithBot ℤ)}
    (hT : CoverTree.make (Leveling.exact b cl fl) P M N pts np indices fuel = .ok T)
    (sorter : StdSort (CNode (WithBot ℤ) K × K)) (q : Pt K d) (hbig : ∀ i < np, M.dist q (pts i) < N.big)
    (nn : Neighbor K) :
    ∃ r, T.searchNn sorter (n + 3) q nn = .ok r ∧ IsNN np (fun i => M.dist q (pts i)) r := by
  obtain ⟨r, h1, h2⟩ := c48_nn _ P M N pts np hn indices hi fuel hT sorter (n + 3 + np) (by omega) q
    (fun m _ p _ => hM.search q (pts m) (pts p)) hbig nn
  refine ⟨r, ?_, h2⟩
  have hne : indices ≠ [] := by
    rintro rfl
    have := hi.length_eq
    simp at this
    omega
  have hmem : ∀ i, i ∈ indices ↔ i < np := fun i => by rw [hi.mem_iff, List.mem_range]
  have hlev : levelCount T.root ≤ n + 3 := by
    rw [CoverTree.make] at hT
    cases hb' : Cover.build (Leveling.exact b cl fl) P (fun i j => M.dist (pts i) (pts j)) fuel indices with
    | ub => rw [hb'] at hT; simp [Outcome.bind] at hT
    | oof => rw [hb'] at hT; simp [Outcome.bind] at hT
    | ok t =>
      rw [hb'] at hT
      simp only [Outcome.bind, Outcome.ok.injEq] at hT
      subst hT
      exact c131_height P fuel indices hb hl (fun _ _ => hM.comm _ _) (fun i => (hM.zero (pts i) (pts i)).2 rfl)
        (fun _ _ _ => hM.triangle _ _ _) hne (hi.nodup_iff.2 List.nodup_range) hs0
        (fun i h j h' => hmin i ((hmem i).1 h) j ((hmem j).1 h'))
        (fun i h j h' => hmax i ((hmem i).1 h) j ((hmem j).1 h')) hb'
  rw [← h1, CoverTree.searchNn, CoverTree.searchNn, CoverTree.searchNearest, CoverTree.searchNearest]
  exact c131_depth sorter _ _ T.root _ (n + 3) np hlev

/-! ### Examples -/

/-- The hypotheses of C131 can be met: eight points on a line at distances between 1 and `2 ^ 4` give a tree with
six levels; the bound is seven. -/
example : ∃ t, Cover.build base2 (stablePart _) (lineDist [0, 5, 8, 11, 2, 7, 16, 3]) 60 (List.range 8) = .ok t ∧
    levelCount t = 6 ∧ t.level = ((5 : ℤ) : WithBot ℤ) ∧
    (∀ i ∈ List.range 8, ∀ j ∈ List.range 8, i ≠ j → (1 : ℚ) ≤ lineDist [0, 5, 8, 11, 2, 7, 16, 3] i j) ∧
    ∀ i ∈ List.range 8, ∀ j ∈ List.range 8, lineDist [0, 5, 8, 11, 2, 7, 16, 3] i j ≤ 1 * 2 ^ 4 := by
  have h : (Cover.build base2 (stablePart _) (lineDist [0, 5, 8, 11, 2, 7, 16, 3]) 60 (List.range 8)).check
      (fun t => decide (levelCount t = 6 ∧ t.level = ((5 : ℤ) : WithBot ℤ))) = true := by decide +kernel
  obtain ⟨t, h1, h2⟩ := Outcome.exists_of_check h
  obtain ⟨h3, h4⟩ := of_decide_eq_true h2
  exact ⟨t, h1, h3, h4, by decide +kernel, by decide +kernel⟩

end Pico.Props
