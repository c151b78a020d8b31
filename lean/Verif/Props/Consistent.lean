import Verif.Proof.Relate
import Verif.Props.Nearest
import Verif.Props.Rounding
import Verif.Props.Nan

/-!
# C91: the searches agree with each other
-/

set_option linter.unusedSectionVars false

namespace Pico.Props

open Pico Spec

section Any
variable {α : Type} [LT α] [LE α] [DecidableLT α] [DecidableLE α] [Zero α] [Add α] [Sub α] {d : Nat} {β : Type}

/-- C91 (one neighbor): `search_knn` over a range of one element is `search_nn` on that element. No order law, so
also for NaN. -/
theorem c91_one_range (T : KdTree α d β) (q : Pt α d) (x : Neighbor α) :
    T.searchKnnRange q [x] = .ok [T.searchNn q x] := by
  unfold KdTree.searchKnnRange KdTree.searchNn KdTree.searchNearest searchNearestRoot
  have h := (searchNearest_rel T.tag.splitDim (T.tag.pick T.metric q) (knnVisitor T.num) nnVisitor
    (fun i => T.metric.dist q (T.pts i)) T.data.indices
    (fun s t => s.buf = [t] ∧ s.active ≤ 1) (by
      rintro ⟨_, _⟩ t ⟨rfl, _⟩
      rfl) (by
      rintro ⟨buf, act⟩ t i ⟨e, hact⟩
      have e : buf = [t] := e
      have hact : act ≤ 1 := hact
      subst e
      simp only [knnVisitor, knnVisit, nnVisitor, knnMax, List.getLast?_singleton]
      split
      · have ha : (if act < 1 then act + 1 else act) = 1 := by split <;> omega
        simp only [List.length_singleton, ha, insertSorted, le_refl, and_true]
        rfl
      · exact ⟨rfl, hact⟩)
    T.data.root 0 (fun _ => 0) ⟨[{ x with distance := T.num.big }], 0⟩ (nnInit T.num x)
    ⟨rfl, Nat.zero_le _⟩).2.1
  simp only [knnInit, List.getLast?_singleton, Outcome.bind, List.length_singleton]
  exact congrArg Outcome.ok h

/-- C91 (one neighbor): `search_knn` with `k = 1` gives exactly the neighbor of `search_nn`, also when the caller's
vector is empty. -/
theorem c91_one (T : KdTree α d β) (hn : 0 < T.n) (q : Pt α d) (prior : List (Neighbor α)) :
    T.searchKnn q 1 prior = .ok [T.searchNn q (prior.headD ⟨0, 0⟩)] := by
  unfold KdTree.searchKnn
  have hm : min 1 T.n = 1 := by omega
  rw [hm]
  cases prior with
  | nil => exact c91_one_range T q _
  | cons a l =>
    have : KdTree.resize 1 (a :: l) = [a] := by simp [KdTree.resize]
    rw [this]
    exact c91_one_range T q a

variable [One α] [Mul α] [Div α]

/-- C91 (ratio one): the approximate searches with ratio one are the exact ones, in every arithmetic in which
`x * (1 / 1) = x`. -/
theorem c91_ratio_one (h1 : ∀ x : α, x * (1 / 1) = x) (T : KdTree α d β) (q : Pt α d) :
    (∀ nn, T.searchNnApprox q 1 nn = T.searchNn q nn) ∧
    (∀ k prior, T.searchKnnApprox q k 1 prior = T.searchKnn q k prior) ∧
    (∀ sorter r prior sort, T.searchRadiusApprox sorter q r 1 prior sort =
      T.searchRadius sorter q r prior sort) := by
  have e1 : (approxNnVisitor (1 : α)) = nnVisitor := by
    simp only [approxNnVisitor, nnVisitor, h1]
  have e2 : approxKnnVisitor T.num (1 : α) = knnVisitor T.num := by
    simp only [approxKnnVisitor, knnVisitor, h1]
  have e3 : ∀ r : α, approxRadiusVisitor 1 r = radiusVisitor r := by
    intro r
    simp only [approxRadiusVisitor, radiusVisitor, h1]
  refine ⟨fun nn => ?_, fun k prior => ?_, fun sorter r prior sort => ?_⟩
  · unfold KdTree.searchNnApprox KdTree.searchNn
    rw [e1]
  · unfold KdTree.searchKnnApprox KdTree.searchKnnApproxRange KdTree.searchKnn KdTree.searchKnnRange
    rw [e2]
  · unfold KdTree.searchRadiusApprox KdTree.searchRadius
    rw [e3]

end Any

section Mono
variable {α : Type} [LinearOrder α] [Zero α] [Add α] [Sub α] {d : Nat} {β : Type}

theorem radius_append (dist : Nat → α) (r : α) (l : List Nat) (s : List (Neighbor α)) :
    visitAll (radiusVisitor r) dist l s =
      s ++ ((l.map fun i => (⟨i, dist i⟩ : Neighbor α)).filter fun x => decide (x.distance < r)) := by
  unfold visitAll
  induction l generalizing s with
  | nil => simp
  | cons a l ih =>
    rw [List.foldl_cons, ih]
    simp only [radiusVisitor, List.map_cons, List.filter_cons, gt_iff_lt]
    by_cases h : dist a < r <;> simp [h]

/-- A larger radius finds more, whatever the arithmetic. -/
theorem radius_sublist (splitDim : β → Fin d) (pick : β → Bool × α) (dist : Nat → α) (indices : List Nat)
    {r r' : α} (hr : r ≤ r') (t : Tree β) (D : α) (off : Pt α d) :
    ∃ a b, a.Sublist b ∧
      (∀ s, searchNearest splitDim pick (radiusVisitor r) dist indices t D (off, s) = (off, s ++ a)) ∧
      (∀ s, searchNearest splitDim pick (radiusVisitor r') dist indices t D (off, s) = (off, s ++ b)) := by
  induction t generalizing D off with
  | leaf b e =>
    refine ⟨(((slice indices b e).map fun i => (⟨i, dist i⟩ : Neighbor α)).filter fun x => decide (x.distance < r)),
      (((slice indices b e).map fun i => (⟨i, dist i⟩ : Neighbor α)).filter fun x => decide (x.distance < r')),
      ?_, fun s => ?_, fun s => ?_⟩
    rotate_left
    · simp only [searchNearest, radius_append]
    · simp only [searchNearest, radius_append]
    · exact List.monotone_filter_right _ fun x hx => by
        simp only [decide_eq_true_eq] at hx ⊢
        exact lt_of_lt_of_le hx hr
  | branch data l r0 ihl ihr =>
    have key : ∀ (t1 t2 : Tree β),
        (∀ D off, ∃ a b, a.Sublist b ∧
          (∀ s, searchNearest splitDim pick (radiusVisitor r) dist indices t1 D (off, s) = (off, s ++ a)) ∧
          (∀ s, searchNearest splitDim pick (radiusVisitor r') dist indices t1 D (off, s) = (off, s ++ b))) →
        (∀ D off, ∃ a b, a.Sublist b ∧
          (∀ s, searchNearest splitDim pick (radiusVisitor r) dist indices t2 D (off, s) = (off, s ++ a)) ∧
          (∀ s, searchNearest splitDim pick (radiusVisitor r') dist indices t2 D (off, s) = (off, s ++ b))) →
        ∃ a b, a.Sublist b ∧ ∀ (ρ : α), ∀ c, (ρ = r ∧ c = a ∨ ρ = r' ∧ c = b) → ∀ s : List (Neighbor α),
          (let st1 := searchNearest splitDim pick (radiusVisitor ρ) dist indices t1 D (off, s)
           let oldOffset := st1.1 (splitDim data)
           let D' := D - oldOffset + (pick data).2
           if (radiusVisitor ρ).max st1.2 ≥ D' then
             let st2 := searchNearest splitDim pick (radiusVisitor ρ) dist indices t2 D'
               (Function.update st1.1 (splitDim data) (pick data).2, st1.2)
             (Function.update st2.1 (splitDim data) oldOffset, st2.2)
           else st1) = (off, s ++ c) := by
      intro t1 t2 ih1 ih2
      obtain ⟨a1, b1, hs1, ha1, hb1⟩ := ih1 D off
      obtain ⟨a2, b2, hs2, ha2, hb2⟩ := ih2 (D - off (splitDim data) + (pick data).2)
        (Function.update off (splitDim data) (pick data).2)
      refine ⟨a1 ++ (if r ≥ D - off (splitDim data) + (pick data).2 then a2 else []),
        b1 ++ (if r' ≥ D - off (splitDim data) + (pick data).2 then b2 else []), ?_, ?_⟩
      · refine hs1.append ?_
        split
        · rename_i h
          rw [if_pos (le_trans h hr)]
          exact hs2
        · exact List.nil_sublist _
      · have hmax : ∀ (ρ : α) (s : List (Neighbor α)), (radiusVisitor ρ).max s = ρ := fun _ _ => rfl
        rintro ρ c (⟨hρ, hc⟩ | ⟨hρ, hc⟩) s
        · rw [hρ, hc]
          simp only [ha1, hmax, ha2]
          split
          · simp [List.append_assoc]
          · simp
        · rw [hρ, hc]
          simp only [hb1, hmax, hb2]
          split
          · simp [List.append_assoc]
          · simp
    by_cases hp : (pick data).1 = true
    · obtain ⟨a, b, h1, h2⟩ := key l r0 ihl ihr
      refine ⟨a, b, h1, fun s => ?_, fun s => ?_⟩
      · have := h2 r a (Or.inl ⟨rfl, rfl⟩) s
        simp only [searchNearest, hp, if_true]
        exact this
      · have := h2 r' b (Or.inr ⟨rfl, rfl⟩) s
        simp only [searchNearest, hp, if_true]
        exact this
    · obtain ⟨a, b, h1, h2⟩ := key r0 l ihr ihl
      have hp : (pick data).1 = false := by simpa using hp
      refine ⟨a, b, h1, fun s => ?_, fun s => ?_⟩
      · have := h2 r a (Or.inl ⟨rfl, rfl⟩) s
        simp only [searchNearest, hp, Bool.false_eq_true, if_false]
        exact this
      · have := h2 r' b (Or.inr ⟨rfl, rfl⟩) s
        simp only [searchNearest, hp, Bool.false_eq_true, if_false]
        exact this

/-- C91 (radius): what a search finds it also finds with a larger radius, in the same order, for any tree, metric and
arithmetic; so also when rounding makes both incomplete. -/
theorem c91_radius (sorter : StdSort (Neighbor α)) (T : KdTree α d β) (q : Pt α d) {r r' : α} (hr : r ≤ r')
    (prior prior' : List (Neighbor α)) :
    (T.searchRadius sorter q r prior false).Sublist (T.searchRadius sorter q r' prior' false) := by
  obtain ⟨a, b, h1, h2, h3⟩ := radius_sublist T.tag.splitDim (T.tag.pick T.metric q)
    (fun i => T.metric.dist q (T.pts i)) T.data.indices hr T.data.root 0 (fun _ => 0)
  unfold KdTree.searchRadius KdTree.searchNearest searchNearestRoot
  simp only [Bool.false_eq_true, if_false, h2, h3, radiusInit, List.nil_append]
  exact h1

end Mono

section Exact
variable {α : Type} [LinearOrder α] [Zero α] [Add α] [Sub α] {d : Nat} {β : Type} {tag : SpaceTag α d β}
  {M : Metric α d} {N : Num α} {pts : Nat → Pt α d} {n : Nat} {o : BuildOpts α d} {fuel : Nat} {T : KdTree α d β}
  {q : Pt α d}

/-- The distances of the nearest, `k` nearest and radius searches are initial segments of one sorted list. -/
structure Agree (T : KdTree α d β) (q : Pt α d) (n : Nat) : Prop where
  knn : ∀ k k' prior prior', 0 < k → k ≤ k' → ∃ out out', T.searchKnn q k prior = .ok out ∧
    T.searchKnn q k' prior' = .ok out' ∧ out.map Neighbor.distance = (out'.map Neighbor.distance).take k
  nn : ∀ k prior nn, 0 < k → ∃ a l, T.searchKnn q k prior = .ok (a :: l) ∧
    a.distance = (T.searchNn q nn).distance
  radius : ∀ sorter r prior prior', ∃ out, T.searchKnn q n prior = .ok out ∧
    (T.searchRadius sorter q r prior' true).map Neighbor.distance =
      (out.map Neighbor.distance).takeWhile (fun x => decide (x < r))

theorem filter_eq_takeWhile {l : List α} (h : l.Pairwise (· ≤ ·)) (r : α) :
    l.filter (fun x => decide (x < r)) = l.takeWhile (fun x => decide (x < r)) := by
  induction l with
  | nil => rfl
  | cons a l ih =>
    obtain ⟨h1, h2⟩ := List.pairwise_cons.1 h
    rw [List.filter_cons, List.takeWhile_cons, ih h2]
    split
    · rfl
    · rename_i hr
      rw [← ih h2, List.filter_eq_nil_iff]
      intro x hx hxr
      simp only [decide_eq_true_eq] at hr hxr
      exact hr (lt_of_le_of_lt (h1 x hx) hxr)

theorem agree_of_exactAt (h : KdTree.make tag M N pts n o fuel = .ok T) (hE : ExactAt T q) (hn : 0 < n)
    (hbig : ∀ i < n, M.dist q (pts i) < N.big) : Agree T q n := by
  have hT : T.n = n := (KdTree.make_ok h).2.2.2.2.1
  have hk := fun k hk prior => knn_of_exact h hE hn rfl hbig k hk prior
  have hsorted : (((List.range n).map fun i => M.dist q (pts i)).mergeSort (fun a b => decide (a ≤ b))).Pairwise
      (· ≤ ·) := by
    have := List.pairwise_mergeSort (le := fun a b : α => decide (a ≤ b))
      (fun a b c hab hbc => by simp only [decide_eq_true_eq] at *; exact hab.trans hbc)
      (fun a b => by simpa using le_total a b) ((List.range n).map fun i => M.dist q (pts i))
    exact this.imp fun h => by simpa using h
  refine ⟨?_, ?_, ?_⟩
  · intro k k' prior prior' h0 hkk
    obtain ⟨out, h1, _, h2⟩ := hk k h0 prior
    obtain ⟨out', h1', _, h2'⟩ := hk k' (by omega) prior'
    refine ⟨out, out', h1, h1', ?_⟩
    rw [h2, h2', Spec.smallest, Spec.smallest, List.take_take, min_eq_left hkk]
  · intro k prior nn h0
    obtain ⟨out, h1, _, h2⟩ := hk k h0 prior
    obtain ⟨out', h1', _, h2'⟩ := hk 1 (by omega) [nn]
    rw [c91_one T (by omega)] at h1'
    obtain rfl := Outcome.ok.inj h1'
    have h3 : (out.map Neighbor.distance).take 1 = [(T.searchNn q nn).distance] := by
      rw [h2, Spec.smallest, List.take_take, min_eq_left (by omega)]
      exact h2'.symm
    cases out with
    | nil => simp at h3
    | cons a l => exact ⟨a, l, h1, by simpa using h3⟩
  · intro sorter r prior prior'
    obtain ⟨out, h1, _, h2⟩ := hk n hn prior
    refine ⟨out, h1, ?_⟩
    obtain ⟨h3, h4⟩ := radius_of_exact h hE rfl sorter r prior' true
    have hfull : Spec.smallest n n (fun i => M.dist q (pts i)) =
        ((List.range n).map fun i => M.dist q (pts i)).mergeSort (fun a b => decide (a ≤ b)) := by
      unfold Spec.smallest
      exact List.take_of_length_le (by simp)
    rw [h2, hfull, ← filter_eq_takeWhile hsorted]
    refine List.Perm.eq_of_pairwise (le := (· ≤ ·)) (fun a b _ _ hab hba => le_antisymm hab hba) ?_
      (hsorted.filter _) ?_
    · rw [List.pairwise_map]
      exact h4 rfl
    · refine (h3.map Neighbor.distance).trans ?_
      unfold Spec.all
      rw [List.filter_map, List.map_map]
      refine List.Perm.trans ?_ ((List.mergeSort_perm _ _).symm.filter _)
      rw [List.filter_map]
      exact List.Perm.refl _

end Exact

section Instances
variable {α : Type} [CommRing α] [LinearOrder α] [IsStrictOrderedRing α] {d : Nat} {N : Num α}
  {pts : Nat → Pt α d} {n : Nat} {o : BuildOpts α d} {fuel : Nat} {M : Metric α d} {q : Pt α d}

/-- C91 (agreement) for the Euclidean metrics. -/
theorem c91_euclidean (hM : EuclideanAdditive M) {T : KdTree α d (Branch1 α d)}
    (h : KdTree.make (euclideanTag α d) M N pts n o fuel = .ok T) (hR : Representable N pts n o) (hn : 0 < n)
    (hbig : ∀ i < n, M.dist q (pts i) < N.big) : Agree T q n :=
  agree_of_exactAt h (exactAt_euclidean hM h hR hn q) hn hbig

/-- C91 (agreement) for the topological metrics. -/
theorem c91_topological (hM : TopologicalAdditive M) {T : KdTree α d (Branch2 α d)}
    (h : KdTree.make (topologicalTag α d) M N pts n o fuel = .ok T) (hR : Representable N pts n o) (hn : 0 < n)
    (hc : CircleOk M.space pts n o q) (hbig : ∀ i < n, M.dist q (pts i) < N.big) : Agree T q n :=
  agree_of_exactAt h (exactAt_topological hM h hR hn q hc) hn hbig

end Instances

/-- C91 (agreement) in one dimension with rounded arithmetic. -/
theorem c91_one_dim {α : Type} [LinearOrder α] [Zero α] [Add α] [Sub α] [Neg α] (L : RoundedLaws α) {N : Num α}
    {pts : Nat → Pt α 1} {n : Nat} {o : BuildOpts α 1} {fuel : Nat} {M : Metric α 1} {q : Pt α 1}
    (hM : AxisMetric M) {T : KdTree α 1 (Branch1 α 1)}
    (h : KdTree.make (euclideanTag α 1) M N pts n o fuel = .ok T) (hR : Representable N pts n o) (hn : 0 < n)
    (hbig : ∀ i < n, M.dist q (pts i) < N.big) : Agree T q n :=
  agree_of_exactAt h (exactAt_one_dim L hM h hR hn q) hn hbig

/-- The hypothesis of `c91_ratio_one` holds for floating point numbers, including infinities and NaN. -/
theorem c91_ratio_float {K : Type} [Field K] [LinearOrder K] [IsStrictOrderedRing K] {Φ : FloatFormat K}
    (h1 : Φ.rd 1 = 1) (hb : 1 ≤ Φ.big) (x : Fl Φ) : x * (1 / 1) = x := by
  have hneg : ¬ (1 : K) < -Φ.big := by have := Φ.big_pos; linarith
  have e1 : (1 : Fl Φ) = .fin 1 ⟨h1, not_lt.1 hneg, hb⟩ := by
    change Fl.ofK Φ 1 = _
    simp only [Fl.ofK, h1, not_lt.2 hb, hneg, dif_neg, not_false_eq_true]
  have e2 : (1 / 1 : Fl Φ) = 1 := by
    rw [e1]
    change Fl.div _ _ = _
    simp only [Fl.div, one_ne_zero, if_false, div_one, Fl.ofK, h1, not_lt.2 hb, hneg, dif_neg, not_false_eq_true]
  rw [e2, e1]
  change Fl.mul _ _ = _
  cases x with
  | nan => rfl
  | inf s => simp [Fl.mul, Fl.infTimes, not_lt.2 zero_le_one]
  | fin x h =>
    simp only [Fl.mul, mul_one, Fl.ofK, h.1, not_lt.2 h.2.1, not_lt.2 h.2.2, dif_neg, not_false_eq_true]

/-! ## Examples -/

/-- Single precision, with a NaN point. -/
example (T : KdTree (Fl float32) 2 (Branch1 (Fl float32) 2)) (q : Pt (Fl float32) 2) (nn : Neighbor (Fl float32)) :
    T.searchNnApprox q 1 nn = T.searchNn q nn :=
  (c91_ratio_one (c91_ratio_float (by decide +kernel) (by decide +kernel)) T q).1 nn

/-- Exact arithmetic, median rule, leaves of at most two points. -/
example : ∃ T, KdTree.make (euclideanTag Rat 1) (metricL1 Rat 1) Ref.ratNum
    (fun i => ![((i * 7 % 5 : Nat) : Rat)]) 5 (Ref.optsMedian Rat 1) 10 = .ok T ∧ Agree T ![2] 5 := by
  obtain ⟨T, h1, _⟩ := Outcome.exists_of_check (x := KdTree.make (euclideanTag Rat 1) (metricL1 Rat 1) Ref.ratNum
    (fun i => ![((i * 7 % 5 : Nat) : Rat)]) 5 (Ref.optsMedian Rat 1) 10) (p := fun _ => true) (by decide +kernel)
  refine ⟨T, h1, c91_euclidean additive_l1 h1 ⟨by decide +kernel, ?_, trivial, fun h => by simp [Ref.optsMedian] at h⟩
    (by decide) ?_⟩
  · have : ∀ i < 5, ∀ j, Ref.ratNum.low ≤ (![((i * 7 % 5 : Nat) : Rat)] : Pt Rat 1) j ∧
      (![((i * 7 % 5 : Nat) : Rat)] : Pt Rat 1) j ≤ Ref.ratNum.big := by decide +kernel
    exact this
  · decide +kernel

/-- With rounding in the plane the agreement is lost: on the points of `c46_false` the first of five neighbors is
nearer than the nearest one. -/
theorem c91_rounding : ∃ T, KdTree.make (euclideanTag F32 2) (metricL2Sq F32 2) f32Num nearCircle 5
    (Ref.optsSliding F32 2) 10 = .ok T ∧ ∃ a l, T.searchKnn ![0, 0] 5 [] = .ok (a :: l) ∧
    a.distance < (T.searchNn ![0, 0] ⟨0, 0⟩).distance := by
  obtain ⟨T, h1, h2⟩ := Outcome.exists_of_check (x := KdTree.make (euclideanTag F32 2) (metricL2Sq F32 2)
    f32Num nearCircle 5 (Ref.optsSliding F32 2) 10)
    (p := fun T => (T.searchKnn ![0, 0] 5 []).check fun out =>
      match out with
      | [] => false
      | a :: _ => decide (a.distance < (T.searchNn ![0, 0] ⟨0, 0⟩).distance)) (by decide +kernel)
  obtain ⟨out, h3, h4⟩ := Outcome.exists_of_check h2
  refine ⟨T, h1, ?_⟩
  cases out with
  | nil => simp at h4
  | cons a l => exact ⟨a, l, h3, of_decide_eq_true h4⟩

end Pico.Props
