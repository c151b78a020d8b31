import Verif.Proof.Exact

/-! # Exactness of the traversal for additive metrics -/

set_option linter.unusedSectionVars false

namespace Pico

section Make
variable {α : Type} [LinearOrder α] [Add α] [Sub α] {d : Nat} {β : Type}

/-- The representability side conditions of a construction: coordinates of points and start bounds
lie between `lowest()` and `max()`, and the computed midpoint of an interval lies in it (needed for
the midpoint rule only). -/
structure Representable (N : Num α) (pts : Nat → Pt α d) (n : Nat) (o : BuildOpts α d) : Prop where
  num : N.low ≤ N.big
  points : ∀ i < n, ∀ j, InRange N (pts i j)
  bounds : o.bounds.InRange N
  mid : o.rule = .midpoint → MidOk N

/-- A finished constructor call. -/
theorem KdTree.make_ok {tag : SpaceTag α d β} {M : Metric α d} {N : Num α} {pts : Nat → Pt α d}
    {n : Nat} {o : BuildOpts α d} {fuel : Nat} {T : KdTree α d β}
    (h : KdTree.make tag M N pts n o fuel = .ok T) :
    T.tag = tag ∧ T.metric = M ∧ T.num = N ∧ T.pts = pts ∧ T.n = n ∧
      buildTree (KdTree.cfg tag N pts o) n o.bounds fuel = .ok T.data := by
  unfold KdTree.make at h
  cases hb : buildTree (KdTree.cfg tag N pts o) n o.bounds fuel with
  | ub => simp [hb, Outcome.bind] at h
  | oof => simp [hb, Outcome.bind] at h
  | ok t =>
    simp only [hb, Outcome.bind, Outcome.ok.injEq] at h
    subst h
    exact ⟨rfl, rfl, rfl, rfl, rfl, rfl⟩

theorem KdTree.make_built {tag : SpaceTag α d β} {M : Metric α d} {N : Num α} {pts : Nat → Pt α d}
    {n : Nat} {o : BuildOpts α d} {fuel : Nat} {T : KdTree α d β}
    (h : KdTree.make tag M N pts n o fuel = .ok T) (hR : Representable N pts n o) (hn : 0 < n) :
    T.data.indices.Perm (List.range n) ∧ T.data.rootBox = boxFromBounds N pts n o.bounds ∧
      (∃ box, Built pts tag.setBranch 0 T.data.root T.data.indices box) ∧
      T.data.root.elems T.data.indices = T.data.indices := by
  obtain ⟨_, _, _, _, _, hb⟩ := KdTree.make_ok h
  obtain ⟨h1, h2, box, h3⟩ := buildTree_built (C := KdTree.cfg tag N pts o) hR.mid hR.num hR.points
    hR.bounds hn hb
  refine ⟨h1, h2, ⟨box, h3⟩, ?_⟩
  have := h3.elems_eq [] [] rfl
  simpa using this

end Make

section Sum
variable {α : Type} [CommRing α] [LinearOrder α] [IsStrictOrderedRing α] {d : Nat}

theorem loopSum_eq (op : Fin d → α) : loopSum op = ∑ j, op j := by
  unfold loopSum
  rw [← List.sum_ofFn, List.ofFn_eq_map]
  generalize List.finRange d = l
  have : ∀ (acc : α), l.foldl (fun acc i => acc + op i) acc = acc + (l.map op).sum := by
    induction l with
    | nil => simp
    | cons a l ih =>
      intro acc
      rw [List.foldl_cons, ih, List.map_cons, List.sum_cons, add_assoc]
  rw [this, zero_add]

theorem sabs_eq (x : α) : sabs x = |x| := by
  unfold sabs
  split_ifs with h
  · exact (abs_of_neg h).symm
  · exact (abs_of_nonneg (not_lt.1 h)).symm

theorem stdMin_eq (a b : α) : stdMin a b = min a b := by
  unfold stdMin
  split_ifs with h
  · exact (min_eq_right h.le).symm
  · exact (min_eq_left (not_lt.1 h)).symm

theorem stdMax_eq (a b : α) : stdMax a b = max a b := by
  unfold stdMax
  split_ifs with h
  · exact (max_eq_right h.le).symm
  · exact (max_eq_left (not_lt.1 h)).symm

/-- The relation between running distance and offsets in exact arithmetic: the sum. -/
theorem sum_step (D : α) (off : Pt α d) (j : Fin d) (x : α) (h : D = ∑ k, off k) :
    D - off j + x = ∑ k, Function.update off j x k := by
  rw [Finset.sum_update_of_mem (Finset.mem_univ j), h]
  rw [← Finset.add_sum_erase _ _ (Finset.mem_univ j), Finset.sdiff_singleton_eq_erase]
  ring

variable {β σ : Type}

/-- What the traversal for the query `q` relies on: the distance is a sum over the axes, and the offset of the child
that is visited second is a lower bound of the summand everywhere. -/
structure GuardAt (T : KdTree α d β) (q : Pt α d) (term : Fin d → Nat → α) : Prop where
  dist_eq : ∀ i < T.n, T.metric.dist q (T.pts i) = ∑ j, term j i
  nonneg : ∀ i < T.n, ∀ j, 0 ≤ term j i
  perm : T.data.indices.Perm (List.range T.n)
  elems : T.data.root.elems T.data.indices = T.data.indices
  guard : Guard T.tag.splitDim (T.tag.pick T.metric q) T.data.indices term T.data.root

/-- Exactness from a guard: whenever the second child's offset is a lower bound everywhere. -/
theorem exactAt_of_guard {T : KdTree α d β} {q : Pt α d} (term : Fin d → Nat → α)
    (hdist : ∀ i < T.n, T.metric.dist q (T.pts i) = ∑ j, term j i)
    (hnn : ∀ i < T.n, ∀ j, 0 ≤ term j i)
    (hperm : T.data.indices.Perm (List.range T.n))
    (helems : T.data.root.elems T.data.indices = T.data.indices)
    (hG : Guard T.tag.splitDim (T.tag.pick T.metric q) T.data.indices term T.data.root) :
    ExactAt T q := by
  intro σ V Inv s hV hI
  have hlt : ∀ i ∈ T.data.root.elems T.data.indices, i < T.n := by
    intro i hi
    rw [helems] at hi
    exact List.mem_range.1 (hperm.subset hi)
  obtain ⟨vis, skip, hp, he, hk⟩ := searchNearest_spec T.tag.splitDim (T.tag.pick T.metric q) V
    (fun i => T.metric.dist q (T.pts i)) T.data.indices term
    (fun D off => D = ∑ k, off k) (fun D off j x h => sum_step D off j x h) (· < T.n)
    (fun D off i hi hD ho => by
      rw [hD, hdist i hi]
      exact Finset.sum_le_sum fun j _ => ho j)
    Inv hV T.data.root 0 (fun _ => 0, s) hlt hG (by simp) (fun i hi j => hnn i (hlt i hi) j) hI
  refine ⟨vis, skip, ?_, ?_, ?_⟩
  · rw [helems] at hp
    exact hp.trans hperm
  · unfold KdTree.searchNearest searchNearestRoot
    rw [he]
  · unfold KdTree.searchNearest searchNearestRoot
    rw [he]
    exact hk

/-- Euclidean metrics that are a sum over the axes of a function of the coordinate difference
which is monotone in the absolute value: `metric_l1`, `metric_l2_squared`, and the kind of user
metrics kd_tree_custom_metric.cpp describes. -/
structure EuclideanAdditive (M : Metric α d) : Prop where
  one_nonneg : ∀ x, 0 ≤ M.one x
  one_mono : ∀ x y, |x| ≤ |y| → M.one x ≤ M.one y
  dist_eq : ∀ x y, M.dist x y = ∑ j, M.one (x j - y j)

theorem guard_euclidean {M : Metric α d} (hM : EuclideanAdditive M) {pts : Nat → Pt α d}
    (q : Pt α d) {o : Nat} {t : Tree (Branch1 α d)} {seg : List Nat} {box : Box α d}
    (h : Built pts setBranchEuclidean o t seg box) (pre post : List Nat) (ho : o = pre.length) :
    Guard (euclideanTag α d).splitDim ((euclideanTag α d).pick M q) (pre ++ (seg ++ post))
      (fun j i => M.one (q j - pts i j)) t := by
  induction h generalizing pre post with
  | leaf _ => trivial
  | @branch o l r segL segR boxL boxR dim hl hr hlr ih1 ih2 =>
    have hel := hl.elems_eq pre (segR ++ post) ho
    have her := hr.elems_eq (pre ++ segL) post (by simp [ho])
    have g1 := ih1 pre (segR ++ post) ho
    have g2 := ih2 (pre ++ segL) post (by simp [ho])
    simp only [List.append_assoc] at hel her g1 g2 ⊢
    refine ⟨?_, g1, g2⟩
    intro i hi
    simp only [euclideanTag, pickEuclidean, setBranchEuclidean] at hi ⊢
    by_cases hc : boxL.max dim + boxR.min dim - q dim - q dim > 0
    · simp only [if_pos hc, if_true] at hi ⊢
      rw [her] at hi
      have hp := (hr.mem i hi dim).1
      apply hM.one_mono
      have h1 : q dim ≤ boxR.min dim := by linarith
      rw [abs_of_nonneg (by linarith), abs_of_nonpos (by linarith)]
      linarith
    · simp only [if_neg hc, Bool.false_eq_true, if_false] at hi ⊢
      rw [hel] at hi
      have hp := (hl.mem i hi dim).2
      apply hM.one_mono
      have h1 : boxL.max dim ≤ q dim := by linarith
      rw [abs_of_nonpos (by linarith), abs_of_nonneg (by linarith)]
      linarith

theorem GuardAt.exactAt {T : KdTree α d β} {q : Pt α d} {term : Fin d → Nat → α} (h : GuardAt T q term) :
    ExactAt T q := exactAt_of_guard term h.dist_eq h.nonneg h.perm h.elems h.guard

/-- The guard for Euclidean additive metrics. -/
theorem guardAt_euclidean {M : Metric α d} (hM : EuclideanAdditive M) {N : Num α}
    {pts : Nat → Pt α d} {n : Nat} {o : BuildOpts α d} {fuel : Nat} {T : KdTree α d (Branch1 α d)}
    (h : KdTree.make (euclideanTag α d) M N pts n o fuel = .ok T) (hR : Representable N pts n o)
    (hn : 0 < n) (q : Pt α d) : GuardAt T q (fun j i => M.one (q j - pts i j)) := by
  obtain ⟨hperm, _, ⟨box, hB⟩, hel⟩ := KdTree.make_built h hR hn
  obtain ⟨h1, h2, h3, h4, h5, _⟩ := KdTree.make_ok h
  have hg := guard_euclidean hM q hB [] [] rfl
  simp only [List.nil_append, List.append_nil] at hg
  refine ⟨?_, ?_, by rw [h5]; exact hperm, hel, ?_⟩
  · intro i _
    rw [h2, h4]
    exact hM.dist_eq _ _
  · intro i _ j
    exact hM.one_nonneg _
  · rw [h1, h2]
    exact hg

/-- Exactness for Euclidean additive metrics. -/
theorem exactAt_euclidean {M : Metric α d} (hM : EuclideanAdditive M) {N : Num α}
    {pts : Nat → Pt α d} {n : Nat} {o : BuildOpts α d} {fuel : Nat} {T : KdTree α d (Branch1 α d)}
    (h : KdTree.make (euclideanTag α d) M N pts n o fuel = .ok T) (hR : Representable N pts n o)
    (hn : 0 < n) (q : Pt α d) : ExactAt T q := (guardAt_euclidean hM h hR hn q).exactAt

theorem additive_l1 : EuclideanAdditive (metricL1 α d) where
  one_nonneg x := by simp only [metricL1, sabs_eq]; exact abs_nonneg x
  one_mono x y h := by simpa only [metricL1, sabs_eq] using h
  dist_eq x y := by simp only [metricL1, loopSum_eq, r1Distance]

theorem additive_l2Sq : EuclideanAdditive (metricL2Sq α d) where
  one_nonneg x := mul_self_nonneg x
  one_mono x y h := by
    simp only [metricL2Sq, squared]
    exact abs_le_iff_mul_self_le.1 h
  dist_eq x y := by simp only [metricL2Sq, loopSum_eq, squaredR1Distance]

theorem npowRep_eq (x : α) (p : Nat) : npowRep x p = x ^ p := by
  induction p with
  | zero => simp [npowRep]
  | succ p ih => rw [npowRep, ih, pow_succ]

theorem additive_lpP (p : Nat) : EuclideanAdditive (metricLpP α p d) where
  one_nonneg x := by
    simp only [metricLpP, npowRep_eq, sabs_eq]
    exact pow_nonneg (abs_nonneg x) p
  one_mono x y h := by
    simp only [metricLpP, npowRep_eq, sabs_eq]
    exact pow_le_pow_left₀ (abs_nonneg x) h p
  dist_eq x y := by simp only [metricLpP, loopSum_eq]

/-- The code's `metric_l1` is the Manhattan distance. -/
theorem metricL1_dist (x y : Pt α d) : (metricL1 α d).dist x y = Spec.l1 x y := by
  simp only [metricL1, loopSum_eq, r1Distance, sabs_eq, Spec.l1]

/-- The code's `metric_l2_squared` is the squared Euclidean distance. -/
theorem metricL2Sq_dist (x y : Pt α d) : (metricL2Sq α d).dist x y = Spec.l2Sq x y := by
  simp only [metricL2Sq, loopSum_eq, squaredR1Distance, squared, Spec.l2Sq, pow_two]

end Sum

end Pico
