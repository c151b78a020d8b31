import Verif.Proof.Topo
import Verif.Proof.Approx
import Verif.Proof.Saturate
import Verif.Proof.Ext
import Verif.Props.Nearest
import Verif.Props.TopoApprox
import Verif.Props.Nan

/-!
# C95: error ratios below one

The approximate searches take any number as error ratio; nothing is checked.
-/

set_option linter.unusedSectionVars false

namespace Pico.Props

open Pico Spec

section
variable {α : Type} [Field α] [LinearOrder α] [IsStrictOrderedRing α] {d : Nat} {β : Type}

/-- The answers of the approximate searches are exact ones, for the distances divided by the ratio. -/
structure ExactRatio (T : KdTree α d β) (q : Pt α d) (n : Nat) (dist : Nat → α) (e big : α) : Prop where
  nn : (∀ i < n, dist i / e < big) → ∀ prior, IsNN n (fun i => dist i / e) (T.searchNnApprox q e prior)
  knn : (∀ i < n, dist i / e < big) → ∀ k prior, 0 < k → ∃ out, T.searchKnnApprox q k e prior = .ok out ∧
    IsKnn n k (fun i => dist i / e) out
  /-- The points inside the radius. -/
  radius : ∀ sorter r prior sort,
    IsRadius n (fun i => dist i / e) (r / e) (T.searchRadiusApprox sorter q r e prior sort) ∧
    (sort = true → (T.searchRadiusApprox sorter q r e prior sort).Pairwise fun a b => a.distance ≤ b.distance)

theorem exactRatio_of_exactAt {T : KdTree α d β} {q : Pt α d} (h : ExactAt T q) (hn : 0 < T.n)
    (hnn : ∀ i < T.n, 0 ≤ T.metric.dist q (T.pts i)) {e : α} (he : 0 < e) (he1 : e ≤ 1) :
    ExactRatio T q T.n (fun i => T.metric.dist q (T.pts i)) e T.num.big := by
  set dist : Nat → α := fun i => T.metric.dist q (T.pts i) with hdist
  set st : Nat → α := fun i => dist i / e with hst
  have est : scaled e dist = st := funext fun i => by simp only [scaled, hst]; rw [mul_one_div]
  have hle : ∀ i < T.n, dist i ≤ st i := fun i hi => le_div_self (hnn i hi) he he1
  have key : ∀ {σ : Type} (V V' : Visitor α σ) (Inv : σ → Prop) (s : σ)
      (_ : ∀ s i, V'.visit s i (dist i) = V.visit s i (st i)) (_ : V'.max = V.max)
      (_ : Shrinks V st (· < T.n) Inv) (_ : Inv s), Final T.n st V s (T.searchNearest q V' s) := by
    intro σ V V' Inv s hv hm hV hI
    obtain ⟨vis, skip, hp, hs, hk⟩ := h.final V' Inv s (fun s i hi hI => by
      have := hV s i hi hI
      rw [← hv, ← hm] at this
      exact this) hI
    refine ⟨vis, skip, hp, ?_, fun i hi => ?_⟩
    · rw [hs]
      unfold visitAll
      congr 1
      funext s i
      exact hv s i
    · rw [← hm]
      exact (hk i hi).trans (hle i ((perm_range_mem hp i).2 (Or.inr hi)))
  have hv1 : ∀ (s : Neighbor α) i, (approxNnVisitor e).visit s i (dist i) = nnVisitor.visit s i (st i) := by
    intro s i; rw [← est]; rfl
  have hv2 : ∀ (s : KnnState α) i, (approxKnnVisitor T.num e).visit s i (dist i) =
      (knnVisitor T.num).visit s i (st i) := by
    intro s i; rw [← est]; rfl
  have hv3 : ∀ r (s : List (Neighbor α)) i, (approxRadiusVisitor e r).visit s i (dist i) =
      (radiusVisitor (r / e)).visit s i (st i) := by
    intro r s i; rw [← est, ← mul_one_div r e]; rfl
  refine ⟨fun hbig prior => ?_, fun hbig k prior hk => ?_, fun sorter r prior sort => ?_⟩
  · exact (key nnVisitor (approxNnVisitor e) (fun _ => True) (nnInit T.num prior) hv1 rfl
      (fun s i _ hs => shrinks_nn st s i trivial hs) trivial).nn hn hbig
  · have hlen := resize_length (min k T.n) prior
    obtain ⟨s, Inv, hs, hI, hV⟩ := knnInit_shrinks (dist := st) (n := T.n) (N := T.num) hbig
      (buf := KdTree.resize (min k T.n) prior) (by rw [hlen]; omega)
    obtain ⟨L, h1, h2⟩ := Final.knn hs (key (knnVisitor T.num) (approxKnnVisitor T.num e) Inv s hv2 rfl hV hI) hbig
      (by rw [hlen]; omega)
    have hol := h2.length
    rw [hlen] at hol
    refine ⟨L, ?_, ?_, h2.sorted, h2.rest⟩
    · unfold KdTree.searchKnnApprox KdTree.searchKnnApproxRange
      rw [hs]
      simp only [Outcome.bind]
      rw [h1, List.drop_eq_nil_of_le, List.append_nil]
      rw [List.length_modify, hlen, hol]
      omega
    · rw [hol]; omega
  · exact isRadius_sort sorter (key (radiusVisitor (r / e)) (approxRadiusVisitor e r) (fun _ => True)
      (radiusInit prior) (hv3 r) (by funext s; exact mul_one_div r e)
      (fun s i _ hs => shrinks_radius st (r / e) s i trivial hs) trivial).radius sort

variable {N : Num α} {pts : Nat → Pt α d} {n : Nat} {o : BuildOpts α d} {fuel : Nat}

/-- C95 (partial, Euclidean spaces): for a ratio between zero and one the approximate searches are exact; the
stored distances are the true ones divided by the ratio. Missing: ratios that are not positive. -/
theorem c95_partial {M : Metric α d} (hM : EuclideanAdditive M) {T : KdTree α d (Branch1 α d)}
    (h : KdTree.make (euclideanTag α d) M N pts n o fuel = .ok T) (hR : Representable N pts n o) (hn : 0 < n)
    (q : Pt α d) {e : α} (he : 0 < e) (he1 : e ≤ 1) :
    ExactRatio T q n (fun i => M.dist q (pts i)) e N.big := by
  have hE := exactAt_euclidean hM h hR hn q
  obtain ⟨_, rfl, rfl, rfl, rfl, _⟩ := KdTree.make_ok h
  exact exactRatio_of_exactAt hE hn (fun i _ => additive_dist_nonneg hM _ _) he he1

/-- C95 (partial, spaces with circles). -/
theorem c95_topological_partial {M : Metric α d} (hM : TopologicalAdditive M) {T : KdTree α d (Branch2 α d)}
    (h : KdTree.make (topologicalTag α d) M N pts n o fuel = .ok T) (hR : Representable N pts n o) (hn : 0 < n)
    (q : Pt α d) (hc : CircleOk M.space pts n o q) (hnn : ∀ i < n, 0 ≤ M.dist q (pts i)) {e : α} (he : 0 < e)
    (he1 : e ≤ 1) : ExactRatio T q n (fun i => M.dist q (pts i)) e N.big := by
  have hE := exactAt_topological hM h hR hn q hc
  obtain ⟨_, rfl, rfl, rfl, rfl, _⟩ := KdTree.make_ok h
  exact exactRatio_of_exactAt hE hn hnn he he1

end

/-! ### Ratios that find nothing -/

section
variable {K : Type} [Field K] [LinearOrder K] [IsStrictOrderedRing K] {Φ : FloatFormat K} {d : Nat} {β : Type}

/-- Not less than zero; NaN is not. -/
def NotNeg (x : Fl Φ) : Prop := ¬ x < 0

theorem notNeg_fin {x : K} {h} : NotNeg (Fl.fin x h : Fl Φ) ↔ 0 ≤ x := by
  unfold NotNeg
  rw [show (0 : Fl Φ) = .fin 0 _ from rfl, fin_lt_fin, not_lt]

theorem notNeg_inf {s : Bool} : NotNeg (Fl.inf s : Fl Φ) ↔ s = false := by
  cases s
  · simp only [iff_true]
    intro h
    exact absurd h (by simp [Ext.fl_lt_iff, Fl.blt, show (0 : Fl Φ) = .fin 0 _ from rfl])
  · simp only [Bool.true_eq_false, iff_false]
    intro h
    exact h (by simp [Ext.fl_lt_iff, Fl.blt, show (0 : Fl Φ) = .fin 0 _ from rfl])

theorem notNeg_nan : NotNeg (Fl.nan : Fl Φ) := Fl.not_nan_lt _

theorem notNeg_ofK {x : K} (h : 0 ≤ x) : NotNeg (Fl.ofK Φ x) := by
  unfold Fl.ofK
  have h1 := rd_nonneg' (Φ := Φ) h
  have h2 := Φ.big_pos
  split_ifs
  all_goals first | exact notNeg_inf.2 rfl | exact notNeg_fin.2 h1 | (exfalso; linarith)

theorem NotNeg.add {a b : Fl Φ} (ha : NotNeg a) (hb : NotNeg b) : NotNeg (a + b) := by
  change NotNeg (Fl.add a b)
  cases a with
  | nan => exact notNeg_nan
  | inf s =>
    cases notNeg_inf.1 ha
    cases b with
    | nan => exact notNeg_nan
    | inf t =>
      cases notNeg_inf.1 hb
      exact notNeg_inf.2 rfl
    | fin y hy => exact notNeg_inf.2 rfl
  | fin x hx =>
    cases b with
    | nan => exact notNeg_nan
    | inf t =>
      cases notNeg_inf.1 hb
      exact notNeg_inf.2 rfl
    | fin y hy => exact notNeg_ofK (add_nonneg (notNeg_fin.1 ha) (notNeg_fin.1 hb))

theorem notNeg_loopSum (f : Fin d → Fl Φ) (h : ∀ j, NotNeg (f j)) : NotNeg (loopSum f) := by
  have key : ∀ (l : List (Fin d)) (acc : Fl Φ), NotNeg acc → NotNeg (l.foldl (fun acc j => acc + f j) acc) := by
    intro l
    induction l with
    | nil => exact fun acc h => h
    | cons a l ih => exact fun acc hacc => ih _ (hacc.add (h a))
  exact key _ _ (notNeg_fin.2 le_rfl)

theorem notNeg_sabs (a : Fl Φ) : NotNeg (sabs a) := by
  unfold sabs
  split_ifs with h
  · cases a with
    | nan => exact notNeg_nan
    | inf s =>
      cases s
      · exact absurd h (notNeg_inf.2 rfl)
      · exact notNeg_inf.2 rfl
    | fin x hx =>
      refine (notNeg_fin (Φ := Φ)).2 ?_
      rw [show (0 : Fl Φ) = .fin 0 _ from rfl, fin_lt_fin] at h
      linarith
  · exact h

theorem notNeg_squared (a : Fl Φ) : NotNeg (squared a) := by
  change NotNeg (Fl.mul a a)
  cases a with
  | nan => exact notNeg_nan
  | inf s => exact notNeg_inf.2 (by simp)
  | fin x hx => exact notNeg_ofK (mul_self_nonneg x)

/-- Computed distances are not negative, whatever happens. -/
theorem notNeg_l1 (x y : Pt (Fl Φ) d) : NotNeg ((metricL1 (Fl Φ) d).dist x y) :=
  notNeg_loopSum _ fun _ => notNeg_sabs _

theorem notNeg_l2 (x y : Pt (Fl Φ) d) : NotNeg ((metricL2Sq (Fl Φ) d).dist x y) :=
  notNeg_loopSum _ fun _ => notNeg_squared _

/-- A computed number that is less than nothing: NaN or infinity. -/
def Above (x : Fl Φ) : Prop := ∀ b, ¬ x < b

theorem above_nan : Above (Fl.nan : Fl Φ) := Fl.not_nan_lt

theorem above_inf : Above (Fl.inf false : Fl Φ) := by
  intro b h
  cases b <;> simp [Ext.fl_lt_iff, Fl.blt] at h

theorem nan_ratio (x : Fl Φ) : x * (1 / (Fl.nan : Fl Φ)) = .nan := by
  have h : (1 : Fl Φ) / .nan = .nan := by
    change Fl.div _ _ = _
    cases (1 : Fl Φ) <;> rfl
  rw [h]
  change Fl.mul _ _ = _
  cases x <;> rfl

theorem zero_ratio : (1 : Fl Φ) / 0 = .nan ∨ (1 : Fl Φ) / 0 = .inf false := by
  have h : NotNeg (1 : Fl Φ) := notNeg_ofK zero_le_one
  change Fl.div _ (.fin 0 _) = _ ∨ Fl.div _ (.fin 0 _) = _
  cases e : (1 : Fl Φ) with
  | nan => exact Or.inl rfl
  | inf s =>
    rw [e] at h
    cases notNeg_inf.1 h
    exact Or.inr (by simp [Fl.div])
  | fin x hx =>
    rw [e] at h
    have := notNeg_fin.1 h
    by_cases h0 : x = 0
    · exact Or.inl (by simp [Fl.div, h0])
    · exact Or.inr (by simp [Fl.div, h0, this])

theorem above_zero_ratio {x : Fl Φ} (hx : NotNeg x) : Above (x * (1 / 0)) := by
  rcases zero_ratio (Φ := Φ) with h | h <;> rw [h]
  · have : x * (.nan : Fl Φ) = .nan := by
      change Fl.mul _ _ = _
      cases x <;> rfl
    rw [this]
    exact above_nan
  · change Above (Fl.mul x (.inf false))
    cases x with
    | nan => exact above_nan
    | inf s =>
      cases notNeg_inf.1 hx
      exact above_inf
    | fin x h =>
      have := notNeg_fin.1 hx
      simp only [Fl.mul, Fl.infTimes]
      split_ifs
      · exact above_nan
      · rw [decide_eq_false (not_lt.2 this)]
        exact above_inf

/-- C95, what happens otherwise: with the ratio NaN, or zero as long as no computed distance is negative, the
approximate searches find nothing, on any tree. -/
theorem c95_nothing (sorter : StdSort (Neighbor (Fl Φ))) (T : KdTree (Fl Φ) d β) (q : Pt (Fl Φ) d) (e : Fl Φ)
    (he : e = .nan ∨ (e = 0 ∧ ∀ i, NotNeg (T.metric.dist q (T.pts i)))) :
    (∀ nn, T.searchNnApprox q e nn = ⟨nn.index, T.num.big⟩) ∧
    (∀ buf x, buf.getLast? = some x →
      T.searchKnnApproxRange q e buf = .ok (buf.set (buf.length - 1) ⟨x.index, T.num.big⟩)) ∧
    ∀ r prior, T.searchRadiusApprox sorter q r e prior false = [] := by
  have hd : ∀ i, Above (T.metric.dist q (T.pts i) * (1 / e)) := by
    intro i
    rcases he with rfl | ⟨rfl, h⟩
    · rw [nan_ratio]; exact above_nan
    · exact above_zero_ratio (h i)
  refine ⟨fun nn => ?_, fun buf x hx => ?_, fun r prior => ?_⟩
  · refine T.searchNearest_keeps q (approxNnVisitor e) (fun s => s = ⟨nn.index, T.num.big⟩) (fun s i _ hs => ?_) _ rfl
    dsimp only [approxNnVisitor]
    rw [if_neg (hd i _)]
    exact hs
  · unfold KdTree.searchKnnApproxRange knnInit
    simp only [hx, Outcome.bind, Outcome.ok.injEq]
    have := T.searchNearest_keeps q (approxKnnVisitor T.num e)
      (fun s => s = ⟨buf.set (buf.length - 1) { x with distance := T.num.big }, 0⟩) (fun s i hi hs => by
        dsimp only [approxKnnVisitor, knnVisit]
        rw [if_neg (hd i _)]
        exact hs) _ rfl
    rw [this]
  · refine T.searchNearest_keeps q (approxRadiusVisitor e r) (fun s => s = []) (fun s i _ hs => ?_) _ rfl
    dsimp only [approxRadiusVisitor]
    rw [if_neg (hd i _)]
    exact hs

theorem mul_zero_ratio {e : Fl Φ} (he : 1 / e = 0) (x : Fl Φ) : x * (1 / e) = 0 ∨ x * (1 / e) = .nan := by
  rw [he]
  change Fl.mul x (.fin 0 _) = _ ∨ Fl.mul x (.fin 0 _) = _
  cases x with
  | nan => exact Or.inr rfl
  | inf s => exact Or.inr (by simp [Fl.mul, Fl.infTimes])
  | fin x h =>
    left
    have h2 := Φ.big_pos
    simp only [Fl.mul, mul_zero, Fl.ofK, Φ.rd_zero]
    rw [dif_neg, dif_neg]
    all_goals first | rfl | linarith

/-- C95, an infinite ratio (if 1 is a number of the type): every distance is reported as zero, so the search for the
nearest neighbor keeps the first point with a finite distance that it sees, and no radius finds anything. -/
theorem c95_infinite (sorter : StdSort (Neighbor (Fl Φ))) (T : KdTree (Fl Φ) d β) (q : Pt (Fl Φ) d) (s : Bool)
    (h1 : ∃ x h, (1 : Fl Φ) = .fin x h) :
    (∀ nn, T.searchNnApprox q (.inf s) nn = ⟨nn.index, T.num.big⟩ ∨ (T.searchNnApprox q (.inf s) nn).distance = 0) ∧
    ∀ r prior, T.searchRadiusApprox sorter q r (.inf s) prior false = [] := by
  have he : (1 : Fl Φ) / .inf s = 0 := by
    obtain ⟨x, h, h1⟩ := h1
    rw [h1]
    rfl
  refine ⟨fun nn => ?_, fun r prior => ?_⟩
  · refine T.searchNearest_keeps q (approxNnVisitor (.inf s))
      (fun t => t = ⟨nn.index, T.num.big⟩ ∨ t.distance = 0) (fun t i _ ht => ?_) _ (Or.inl rfl)
    dsimp only [approxNnVisitor]
    split_ifs with hlt
    · rcases mul_zero_ratio he (T.metric.dist q (T.pts i)) with h | h
      · exact Or.inr h
      · rw [h] at hlt
        exact absurd hlt (Fl.not_nan_lt _)
    · exact ht
  · refine T.searchNearest_keeps q (approxRadiusVisitor (.inf s) r) (fun t => t = []) (fun t i _ ht => ?_) _ rfl
    dsimp only [approxRadiusVisitor]
    rw [if_neg]
    · exact ht
    · intro hlt
      rcases mul_zero_ratio he (T.metric.dist q (T.pts i)) with h | h <;> rw [h] at hlt
      · rcases mul_zero_ratio he r with h' | h' <;> rw [h'] at hlt
        · exact absurd hlt (by rw [gt_iff_lt, show (0 : Fl Φ) = .fin 0 _ from rfl, fin_lt_fin]; exact lt_irrefl _)
        · exact absurd hlt (by simp [Ext.fl_lt_iff, Fl.blt, show (0 : Fl Φ) = .fin 0 _ from rfl])
      · exact absurd hlt (Fl.not_nan_lt _)

end

/-! ### Wrong answers -/

/-- Three numbers. -/
def threePts : Nat → Pt (Fl float32) 1 := fun i _ => fl ([1, 4, 9].getD i 0)

/-- C95 is false. With the ratio `-1` the "nearest" neighbor of 0 among 1, 4 and 9 is the farthest point, 9, and its
distance is negative. With the ratio zero none of the three points is found. -/
theorem c95_false :
    (∃ T, KdTree.make (euclideanTag (Fl float32) 1) (metricL1 (Fl float32) 1) (Fl.num float32) threePts 3
        (⟨Ref.std, .sliding, .maxLeafSize 3, .fromSpace, 32⟩) 10 = .ok T ∧
      T.searchNnApprox 0 (fl (-1)) ⟨0, 0⟩ = ⟨2, fl (-9)⟩) ∧
    (∃ T, KdTree.make (euclideanTag (Fl float32) 1) (metricL1 (Fl float32) 1) (Fl.num float32) threePts 3
        (Ref.optsSliding (Fl float32) 1) 10 = .ok T ∧
      ∀ nn, T.searchNnApprox 0 0 nn = ⟨nn.index, (Fl.num float32).big⟩) := by
  constructor
  · obtain ⟨T, h1, h2⟩ := Outcome.exists_of_check (x := KdTree.make (euclideanTag (Fl float32) 1)
      (metricL1 (Fl float32) 1) (Fl.num float32) threePts 3 ⟨Ref.std, .sliding, .maxLeafSize 3, .fromSpace, 32⟩ 10)
      (p := fun T => decide (T.searchNnApprox 0 (fl (-1)) ⟨0, 0⟩ = ⟨2, fl (-9)⟩)) (by decide +kernel)
    exact ⟨T, h1, of_decide_eq_true h2⟩
  · obtain ⟨T, h1, -⟩ := Outcome.exists_of_check (x := KdTree.make (euclideanTag (Fl float32) 1)
      (metricL1 (Fl float32) 1) (Fl.num float32) threePts 3 (Ref.optsSliding (Fl float32) 1) 10)
      (p := fun _ => true) (by decide +kernel)
    obtain ⟨hM, hN⟩ : T.metric = metricL1 (Fl float32) 1 ∧ T.num = Fl.num float32 := by
      unfold KdTree.make at h1
      cases hb : buildTree (KdTree.cfg (euclideanTag (Fl float32) 1) (Fl.num float32) threePts
          (Ref.optsSliding (Fl float32) 1)) 3 (Ref.optsSliding (Fl float32) 1).bounds 10 with
      | ub => simp [hb, Outcome.bind] at h1
      | oof => simp [hb, Outcome.bind] at h1
      | ok t =>
        simp only [hb, Outcome.bind, Outcome.ok.injEq] at h1
        subst h1
        exact ⟨rfl, rfl⟩
    refine ⟨T, h1, fun nn => ?_⟩
    have := (c95_nothing (Ref.sorter _) T 0 0 (Or.inr ⟨rfl, fun i => ?_⟩)).1 nn
    · rw [this, hN]
    · rw [hM]
      exact notNeg_l1 _ _

/-- C95 is false for an infinite ratio: the point 1 is taken for the nearest neighbor of 9 among 1, 4 and 9, at distance
zero. -/
theorem c95_infinite_false : ∃ T, KdTree.make (euclideanTag (Fl float32) 1) (metricL1 (Fl float32) 1) (Fl.num float32)
      threePts 3 ⟨Ref.std, .sliding, .maxLeafSize 3, .fromSpace, 32⟩ 10 = .ok T ∧
    T.searchNnApprox (fun _ => fl 9) (.inf false) ⟨7, 0⟩ = ⟨0, 0⟩ := by
  obtain ⟨T, h1, h2⟩ := Outcome.exists_of_check (x := KdTree.make (euclideanTag (Fl float32) 1)
    (metricL1 (Fl float32) 1) (Fl.num float32) threePts 3 ⟨Ref.std, .sliding, .maxLeafSize 3, .fromSpace, 32⟩ 10)
    (p := fun T => decide (T.searchNnApprox (fun _ => fl 9) (.inf false) ⟨7, 0⟩ = ⟨0, 0⟩)) (by decide +kernel)
  exact ⟨T, h1, of_decide_eq_true h2⟩

/-- 1 is a number of the type `float`. -/
example : ∃ x h, (1 : Fl float32) = .fin x h := by
  change ∃ x h, Fl.ofK float32 1 = .fin x h
  unfold Fl.ofK
  rw [dif_neg (by decide +kernel), dif_neg (by decide +kernel)]
  exact ⟨_, _, rfl⟩

/-- The hypotheses of C95 can be met: with the ratio one half, the nearest neighbor of 6 among 1, 4 and 9. -/
example : ∃ T, KdTree.make (euclideanTag ℚ 1) (metricL1 ℚ 1) Ref.ratNum (fun i _ => [1, 4, 9].getD i 0) 3
      (Ref.optsSliding ℚ 1) 10 = .ok T ∧
    IsNN 3 (fun i => (metricL1 ℚ 1).dist (fun _ => 6) (fun _ => [1, 4, 9].getD i 0) / (1 / 2))
      (T.searchNnApprox (fun _ => 6) (1 / 2) ⟨0, 0⟩) := by
  obtain ⟨T, h1, -⟩ := Outcome.exists_of_check (x := KdTree.make (euclideanTag ℚ 1) (metricL1 ℚ 1) Ref.ratNum
    (fun i _ => [1, 4, 9].getD i 0) 3 (Ref.optsSliding ℚ 1) 10) (p := fun _ => true) (by decide +kernel)
  exact ⟨T, h1, (c95_partial additive_l1 h1 ⟨by decide +kernel, by
    have : ∀ i < 3, ∀ j : Fin 1, Ref.ratNum.low ≤ (fun i (_ : Fin 1) => ([1, 4, 9] : List ℚ).getD i 0) i j ∧
      (fun i (_ : Fin 1) => ([1, 4, 9] : List ℚ).getD i 0) i j ≤ Ref.ratNum.big := by decide +kernel
    exact this, trivial, fun h => by simp [Ref.optsSliding] at h⟩ (by decide) (fun _ => 6) (by norm_num)
    (by norm_num)).nn (by decide +kernel) ⟨0, 0⟩⟩

end Pico.Props
