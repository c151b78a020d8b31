import Verif.Model.CoverTest
import Verif.Props.Cover
import Verif.Props.TestHelpers

/-! # The unit tests of the cover tree (C148) -/

namespace Pico.Props
open CoverTest TestHelpers Spec

section
variable {K : Type} [Field K] [LinearOrder K] [IsStrictOrderedRing K] {d : Nat} {L : Type}
variable (B : Leveling K L) (P : StdPart (CNode L Unit)) {M : Metric K d} {N : Num K} {pts : Nat → Pt K d} {n : Nat}
  {indices : List Nat} {fuel : Nat} (sorter : StdSort (CNode L K × K))

omit [IsStrictOrderedRing K] in
theorem cover_make_fields {T : CoverTree K d L} (h : CoverTree.make B P M N pts n indices fuel = .ok T) :
    T.pts = pts ∧ T.n = n := by
  unfold CoverTree.make at h
  cases hb : Cover.build B P (fun i j => M.dist (pts i) (pts j)) fuel indices with
  | ok t => rw [hb] at h; cases h; exact ⟨rfl, rfl⟩
  | ub => rw [hb] at h; cases h
  | oof => rw [hb] at h; cases h

variable (hn : 0 < n) (hi : indices.Perm (List.range n)) {same : Pt K d → Pt K d → Prop} (hM : FullMetric M.dist same)
  {T : CoverTree K d L} (hT : CoverTree.make B P M N pts n indices fuel = .ok T) (hf : n ≤ fuel)
include hn hi hM hT hf

/-- Once the tree is built, the radius test gives a verdict, and it passes exactly if no point is at the distance
`radius` from the query. -/
theorem c148_radius (sorter' : StdSort (Neighbor K)) (floatEq : K → K → Bool) (hrefl : ∀ a, floatEq a a = true)
    {scale radius : K} (he : 1 ≤ M.one scale) :
    ∃ b, queryRadius B P M N sorter sorter' floatEq pts n indices scale radius fuel = .ok b ∧
      (b = true ↔ ∀ i < n, M.dist (pts (n / 2)) (pts i) ≠ M.one radius) := by
  obtain ⟨hp, hnn⟩ := cover_make_fields B P hT
  have htri : ∀ m < n, ∀ p < n, M.dist (pts (n / 2)) (pts m) ≤ M.dist (pts (n / 2)) (pts p) + M.dist (pts m) (pts p) :=
    fun m _ p _ => hM.search _ _ _
  obtain ⟨x, hx, hx1, -⟩ := c48_radius B P M N pts n hn indices hi fuel hT sorter fuel hf (pts (n / 2)) htri sorter'
    (M.one radius) [] false
  obtain ⟨y, hy, hy1⟩ := c48_radius_approx B P M N pts n hn indices hi fuel hT sorter fuel hf (pts (n / 2)) htri
    (fun i _ => hM.nonneg _ _) sorter' (M.one radius) (M.one scale) he [] false
  have hiff := c99_radius_right floatEq hrefl (M.one radius) (M.one scale) x y hx1 hy1
  have hq : queryRadius B P M N sorter sorter' floatEq pts n indices scale radius fuel =
      testRadius floatEq n (fun i => M.dist (pts (n / 2)) (pts i)) (M.one radius) (M.one scale) x y := by
    unfold queryRadius
    rw [hT]
    simp only [Outcome.bind, hp, hnn, hx, hy]
  rw [hq]
  cases ht : testRadius floatEq n (fun i => M.dist (pts (n / 2)) (pts i)) (M.one radius) (M.one scale) x y with
  | ok b =>
    refine ⟨b, rfl, ?_⟩
    rw [ht] at hiff
    simpa using hiff
  | ub =>
    obtain ⟨a, ha, hle⟩ := (c99_radius_outside floatEq _ _ x y).1 ht
    rcases List.mem_append.1 ha with ha | ha
    · obtain ⟨i, hi', rfl⟩ := List.mem_map.1 (List.mem_filter.1 (hx1.mem_iff.1 ha)).1
      exact absurd (List.mem_range.1 hi') (by simpa using hle)
    · exact absurd (hy1.sound a ha).1 (by omega)
  | oof => unfold testRadius at ht; split at ht <;> cases ht

/-- Once the tree is built, the test of the k nearest neighbors passes. -/
theorem c148_knn (A : StdNth (Neighbor K)) (S : StdSort (Neighbor K)) (floatEq floatLe : K → K → Bool)
    (hrefl : ∀ a, floatEq a a = true) (hle : ∀ a b, a ≤ b → floatLe a b = true)
    {scale : K} (he : 1 ≤ M.one scale) (hbig : ∀ i < n, M.dist (pts (n / 2)) (pts i) < N.big) {k : Nat} (hk : 0 < k) :
    queryKnn B P M N sorter A S floatEq floatLe pts n indices scale k fuel = .ok true := by
  obtain ⟨hp, hnn⟩ := cover_make_fields B P hT
  have htri : ∀ m < n, ∀ p < n, M.dist (pts (n / 2)) (pts m) ≤ M.dist (pts (n / 2)) (pts p) + M.dist (pts m) (pts p) :=
    fun m _ p _ => hM.search _ _ _
  obtain ⟨x, hx, hx1⟩ := c48_knn B P M N pts n hn indices hi fuel hT sorter fuel hf (pts (n / 2)) htri hbig k hk []
  obtain ⟨y, hy, hy1⟩ := c48_knn_approx B P M N pts n hn indices hi fuel hT sorter fuel hf (pts (n / 2)) htri
    (fun i _ => hM.nonneg _ _) (M.one scale) he hbig k hk []
  unfold queryKnn
  rw [hT]
  simp only [Outcome.bind, hp, hnn, hx, hy]
  exact c99_knn_right A S floatEq floatLe hrefl hle k hk hn _ he x y hx1 hy1

end

section
variable {d : Nat} (b : ℝ) (cl fl : ℝ → ℤ) (P : StdPart (CNode (WithBot ℤ) Unit)) {N : Num ℝ} {pts : Nat → Pt ℝ d} {n : Nat}
  {indices : List Nat}

/-- The tests as they are, for any points that are different and any order of insertion: they finish, the ones of the k
nearest neighbors pass, and the one with the radius 2.5 passes if and only if no point is at this distance from the
query. -/
theorem c148_tests (hn : 0 < n) (hi : indices.Perm (List.range n)) (hd : ∀ i < n, ∀ j < n, pts i = pts j → i = j)
    (hbig : ∀ i < n, (metricL2 Real.sqrt d).dist (pts (n / 2)) (pts i) < N.big) :
    ∃ F, ∀ fuel, F ≤ fuel → ∀ (sorter : StdSort (CNode (WithBot ℤ) ℝ × ℝ)) (A : StdNth (Neighbor ℝ))
      (S : StdSort (Neighbor ℝ)) (floatEq floatLe : ℝ → ℝ → Bool), (∀ a, floatEq a a = true) →
      (∀ a b, a ≤ b → floatLe a b = true) →
      (∀ k, 0 < k → queryKnn (Leveling.exact b cl fl) P (metricL2 Real.sqrt d) N sorter A S floatEq floatLe pts n indices
        (3 / 2) k fuel = .ok true) ∧
      (queryRadius (Leveling.exact b cl fl) P (metricL2 Real.sqrt d) N sorter S floatEq pts n indices (3 / 2) (5 / 2)
        fuel = .ok true ↔ ∀ i < n, (metricL2 Real.sqrt d).dist (pts (n / 2)) (pts i) ≠ 5 / 2) := by
  have hm : ∀ {i}, i ∈ indices → i < n := fun h => List.mem_range.1 (hi.mem_iff.1 h)
  obtain ⟨F, t, ht⟩ := c50_partial b cl fl P (fun i j => (metricL2 Real.sqrt d).dist (pts i) (pts j)) indices
    (hi.nodup_iff.2 List.nodup_range) (by rintro rfl; simpa using hi.length_eq.symm.trans_lt hn)
    (fun i hi' j hj hij => lt_of_le_of_ne (c41_l2.nonneg _ _) fun h =>
      hij (hd i (hm hi') j (hm hj) ((c41_l2.zero _ _).1 h.symm)))
    (fun i _ => (c41_l2.zero _ _).2 rfl)
  refine ⟨max F n, fun fuel hF sorter A S floatEq floatLe hrefl hle => ?_⟩
  have hT : CoverTree.make (Leveling.exact b cl fl) P (metricL2 Real.sqrt d) N pts n indices fuel
      = .ok ⟨metricL2 Real.sqrt d, N, pts, n, t⟩ := by
    unfold CoverTree.make
    rw [ht fuel (le_trans (le_max_left _ _) hF)]
    rfl
  have hf : n ≤ fuel := le_trans (le_max_right _ _) hF
  have h1 : (metricL2 Real.sqrt d).one (3 / 2) = 3 / 2 := by simp only [metricL2, sabs]; norm_num
  have h2 : (metricL2 Real.sqrt d).one (5 / 2) = 5 / 2 := by simp only [metricL2, sabs]; norm_num
  have he : 1 ≤ (metricL2 Real.sqrt d).one (3 / 2) := by rw [h1]; norm_num
  refine ⟨fun k hk => c148_knn _ P sorter hn hi c41_l2 hT hf A S floatEq floatLe hrefl hle he hbig hk, ?_⟩
  obtain ⟨v, hv, hiff⟩ := c148_radius _ P sorter hn hi c41_l2 hT hf S floatEq hrefl he (radius := 5 / 2)
  rw [hv, ← h2, ← hiff]
  simp

/-- If two of the random points coincide and a third one is elsewhere, then there is an order of insertion with which
neither test ends. -/
theorem c148_hang_false {i j k : Nat} (hi : i < n) (hj : j < n) (hk : k < n) (hij : i ≠ j) (h : pts i = pts j)
    (hki : pts k ≠ pts i) : ∃ indices : List Nat, indices.Perm (List.range n) ∧
      ∀ fuel (sorter : StdSort (CNode (WithBot ℤ) ℝ × ℝ)) (A : StdNth (Neighbor ℝ)) (S : StdSort (Neighbor ℝ))
        (floatEq floatLe : ℝ → ℝ → Bool) (scale radius : ℝ) (m : Nat),
        queryKnn (Leveling.exact b cl fl) P (metricL2 Real.sqrt d) N sorter A S floatEq floatLe pts n indices scale m
          fuel = .oof ∧
        queryRadius (Leveling.exact b cl fl) P (metricL2 Real.sqrt d) N sorter S floatEq pts n indices scale radius
          fuel = .oof := by
  have z : ∀ a c, (metricL2 Real.sqrt d).dist (pts a) (pts c) = 0 ↔ pts a = pts c := fun a c => c41_l2.zero _ _
  obtain ⟨l, h1, h2⟩ := c50_false b cl fl P (fun i j => (metricL2 Real.sqrt d).dist (pts i) (pts j)) n i j k hi hj hk hij
    (fun a _ => c41_l2.nonneg _ _) ((z _ _).2 h) ((z _ _).2 h.symm) ((z _ _).2 rfl)
    (lt_of_le_of_ne (c41_l2.nonneg _ _) fun e => hki ((z _ _).1 e.symm))
  refine ⟨l, h1, fun fuel sorter A S floatEq floatLe scale radius m => ?_⟩
  have hT : CoverTree.make (Leveling.exact b cl fl) P (metricL2 Real.sqrt d) N pts n l fuel = .oof := by
    unfold CoverTree.make
    rw [h2 fuel]
    rfl
  constructor
  · unfold queryKnn; rw [hT]; rfl
  · unfold queryRadius; rw [hT]; rfl

end

/-! ## Examples -/

/-- Points on a line with `metric_l1`: the query is 4; no point at distance 2, two points at distance 3. -/
example : queryKnn base2 (stablePart _) (metricL1 ℚ 1) Ref.ratNum (Ref.sorter _) (nthBySort _) (Ref.sorter _)
      (fun a b => decide (a = b)) (fun a b => decide (a ≤ b)) (onLine [0, 1, 4, 7, 9]) 5 [2, 0, 4, 1, 3] (3 / 2) 3 20
        = .ok true ∧
    queryRadius base2 (stablePart _) (metricL1 ℚ 1) Ref.ratNum (Ref.sorter _) (Ref.sorter _) (fun a b => decide (a = b))
      (onLine [0, 1, 4, 7, 9]) 5 [2, 0, 4, 1, 3] (3 / 2) 2 20 = .ok true ∧
    queryRadius base2 (stablePart _) (metricL1 ℚ 1) Ref.ratNum (Ref.sorter _) (Ref.sorter _) (fun a b => decide (a = b))
      (onLine [0, 1, 4, 7, 9]) 5 [2, 0, 4, 1, 3] (3 / 2) 3 20 = .ok false := by
  refine ⟨?_, ?_, ?_⟩ <;> decide +kernel

/-- Two points for `c148_tests` whose radius test fails: (1.5, 2) and the origin are 2.5 apart. -/
theorem c148_border_false : ∃ pts : Nat → Pt ℝ 2, (∀ i < 2, ∀ j < 2, pts i = pts j → i = j) ∧
    ¬ ∀ i < 2, (metricL2 Real.sqrt 2).dist (pts (2 / 2)) (pts i) ≠ 5 / 2 := by
  refine ⟨fun i => if i = 0 then ![3 / 2, 2] else ![0, 0], ?_, fun h => h 0 (by norm_num) ?_⟩
  · intro i hi j hj h
    have h0 := congrFun h 0
    have e : ∀ m : Nat, m < 2 → m = 0 ∨ m = 1 := fun m hm => by omega
    rcases e i hi with rfl | rfl <;> rcases e j hj with rfl | rfl <;> simp_all
  · have : (metricL2 Real.sqrt 2).dist ![0, 0] ![3 / 2, 2] = Real.sqrt ((5 / 2) ^ 2) := by
      simp only [metricL2, loopSum_eq, Fin.sum_univ_two, squaredR1Distance, squared]
      congr 1
      norm_num
    simp only [Nat.reduceDiv, one_ne_zero, if_false, if_true, this]
    exact Real.sqrt_sq (by norm_num)

end Pico.Props
