import Verif.Props.SearchWork

/-!
# C116: distinct points in more than one dimension

The distance of a node that `search_nearest` compares with `max()` starts at zero in the root and only grows along axes
that were split on (kd_tree_search.hpp:47-104). How far the query is from the points along the other axes is never
seen. If all points are on one line parallel to an axis then a query beside the line opens every leaf.
-/

namespace Pico.Props

open Pico Spec

section Flat
variable {α : Type} [Field α] [LinearOrder α] [IsStrictOrderedRing α] {d : Nat} {N : Num α} {pts : Nat → Pt α d}
  {n : Nat} {o : BuildOpts α d} {fuel : Nat} {M : Metric α d} {T : KdTree α d (Branch1 α d)}

/-- All branches split along axis `a`. -/
def SplitsOnly (a : Fin d) : Tree (Branch1 α d) → Prop
  | .leaf _ _ => True
  | .branch b l r => b.splitDim = a ∧ SplitsOnly a l ∧ SplitsOnly a r

omit [Field α] [IsStrictOrderedRing α] in
theorem tightCell_only {a : Fin d} {v : List Nat} {i : Nat} {y z : Pt α d} (hyz : y a = z a) :
    ∀ {t : Tree (Branch1 α d)}, SplitsOnly a t → tightCell v t i y → tightCell v t i z
  | .leaf _ _, _, _ => trivial
  | .branch b l r, ⟨hb, hl, hr⟩, ⟨h1, h2⟩ => by
    rw [hb] at h1 h2
    refine ⟨fun h => ?_, fun h => ?_⟩
    · rw [hb]
      exact ⟨hyz ▸ (h1 h).1, tightCell_only hyz hl (h1 h).2⟩
    · rw [hb]
      exact ⟨hyz ▸ (h2 h).1, tightCell_only hyz hr (h2 h).2⟩

/-- Distinct points on a line parallel to axis `a` are split along this axis only, with every rule. -/
theorem Created.splitsOnly {C : BuildCfg α d (Branch1 α d)} (hC : C.setBranch = setBranchEuclidean)
    (hst : StopOk C) (a : Fin d) {depth : Int} {off : Nat} {seg seg' : List Nat} {box box' : Box α d}
    {t : Tree (Branch1 α d)} (h : Created C depth off seg box t seg' box') (hnd : seg.Nodup)
    (hd : ∀ i ∈ seg, ∀ k ∈ seg, C.pts i a = C.pts k a → i = k) (hm : ∀ i ∈ seg, box.Mem (C.pts i))
    (hb : ∀ k, k ≠ a → box.max k - box.min k ≤ 0) : SplitsOnly a t := by
  induction h with
  | leaf _ => trivial
  | @branch depth off seg box sp l r segL segR boxL boxR hl hs _ _ ih1 ih2 =>
    obtain ⟨hok, ⟨delta, hmax, -⟩, -⟩ := splitter_ok hs
    obtain ⟨e1, -, -, e4⟩ := maxSide_some hmax
    have hdim : sp.dim = a := by
      by_contra hne
      have h2 := two_le_of_not_leaf hst hl
      match seg, h2 with
      | i :: k :: _, _ =>
        have hik : C.pts i a ≠ C.pts k a := fun e => by
          have := hd i (by simp) k (by simp) e
          subst this
          simp at hnd
        have h3 := e4 a
        have h4 := hb sp.dim hne
        have hi := hm i (by simp) a
        have hk := hm k (by simp) a
        rcases lt_or_gt_of_ne hik with hx | hx
        · linarith [hi.1, hk.2]
        · linarith [hi.2, hk.1]
    have hmem := splitter_mem hs
    have hnd' := (hok.perm.nodup_iff).2 hnd
    refine ⟨by rw [hC]; exact hdim, ih1 ?_ ?_ ?_ ?_, ih2 ?_ ?_ ?_ ?_⟩
    · exact hnd'.sublist (List.take_sublist ..)
    · exact fun i hi k hk => hd i (hmem.1 i hi) k (hmem.1 k hk)
    · intro i hi j
      have h1 := hm i (hmem.1 i hi) j
      by_cases hj : j = sp.dim
      · subst hj; simpa using ⟨h1.1, hok.left_le i hi⟩
      · rw [Box.setMax_max_ne _ _ hj]; exact h1
    · intro k hk
      rw [Box.setMax_max_ne _ _ (by rw [hdim]; exact hk)]
      exact hb k hk
    · exact hnd'.sublist (List.drop_sublist ..)
    · exact fun i hi k hk => hd i (hmem.2 i hi) k (hmem.2 k hk)
    · intro i hi j
      have h1 := hm i (hmem.2 i hi) j
      by_cases hj : j = sp.dim
      · subst hj; simpa using ⟨hok.right_ge i hi, h1.2⟩
      · rw [Box.setMin_min_ne _ _ hj]; exact h1
    · intro k hk
      rw [Box.setMin_min_ne _ _ (by rw [hdim]; exact hk)]
      exact hb k hk

theorem splitsOnly_make (h : KdTree.make (euclideanTag α d) M N pts n o fuel = .ok T) (hR : Representable N pts n o)
    (hn : 0 < n) (hbd : o.bounds = .fromSpace) (a : Fin d) (hd : ∀ i < n, ∀ k < n, pts i a = pts k a → i = k)
    (hflat : ∀ i < n, ∀ k < n, ∀ j, j ≠ a → pts i j = pts k j) : SplitsOnly a T.data.root := by
  obtain ⟨box, hc⟩ := created_of_make h
  refine Created.splitsOnly rfl (stopOk_of_created hc (by simpa using hn)) a hc List.nodup_range
    (fun i hi k hk => hd i (List.mem_range.1 hi) k (List.mem_range.1 hk)) ?_ ?_
  · intro i hi
    rw [hbd]
    exact boxFromBounds_fromSpace_mem N pts n i (List.mem_range.1 hi)
  · intro k hk
    rw [hbd]
    have h1 : (boxFromBounds N pts n .fromSpace).max k ≤ pts 0 k :=
      (foldl_fitPt_max pts _ _ k _).2 ⟨(hR.points 0 hn k).1, fun i hi =>
        (hflat i (List.mem_range.1 hi) 0 hn k hk).le⟩
    have h2 : pts 0 k ≤ (boxFromBounds N pts n .fromSpace).min k :=
      (foldl_fitPt_min pts _ _ k _).2 ⟨(hR.points 0 hn k).2, fun i hi =>
        (hflat i (List.mem_range.1 hi) 0 hn k hk).ge⟩
    linarith

/-- Distinct points on a line parallel to axis `a`, and a query whose distance to each point is at least `e` times the
part of the distance along this axis: all `n` points are looked at, exact or approximate with ratio `e`, with every
rule and leaf size. -/
theorem c116_beside (hM : EuclideanAdditive M) (h0 : M.one 0 = 0)
    (h : KdTree.make (euclideanTag α d) M N pts n o fuel = .ok T) (hR : Representable N pts n o) (hn : 0 < n)
    (hbd : o.bounds = .fromSpace) (a : Fin d) (hd : ∀ i < n, ∀ k < n, pts i a = pts k a → i = k)
    (hflat : ∀ i < n, ∀ k < n, ∀ j, j ≠ a → pts i j = pts k j) (q : Pt α d)
    (hbig : ∀ i < n, M.dist q (pts i) < N.big) {e : α} (he : 1 ≤ e)
    (hfar : ∀ i < n, ∀ k < n, e * M.one (q a - pts i a) ≤ M.dist q (pts k)) :
    (∀ nn, (T.looked q nnVisitor (nnInit N nn)).length = n) ∧
    (∀ nn, (T.looked q (approxNnVisitor e) (nnInit N nn)).length = n) ∧
    (∀ buf s, knnInit N buf = .ok s → (T.looked q (knnVisitor N) s).length = n) ∧
    (∀ buf s, knnInit N buf = .ok s → (T.looked q (approxKnnVisitor N e) s).length = n) := by
  obtain ⟨hperm, _, ⟨box, hB⟩, hel⟩ := KdTree.make_built h hR hn
  have he0 : 0 < e := lt_of_lt_of_le one_pos he
  have hnn : ∀ i < n, 0 ≤ M.dist q (pts i) := fun i _ => by
    rw [hM.dist_eq]
    exact Finset.sum_nonneg fun j _ => hM.one_nonneg _
  have hline := splitsOnly_make h hR hn hbd a hd hflat
  have hpart : ∀ i < n, M.dist q (Function.update q a (pts i a)) = M.one (q a - pts i a) := by
    intro i _
    rw [hM.dist_eq, Finset.sum_eq_single a]
    · simp
    · intro k _ hk
      simp [hk, h0]
    · simp
  have hle : ∀ i < n, ∀ k < n, M.one (q a - pts i a) ≤ scaled e (fun i => M.dist q (pts i)) k := by
    intro i hi k hk
    unfold scaled
    rw [mul_one_div, le_div_iff₀ he0, mul_comm]
    exact hfar i hi k hk
  have hsc : ∀ i < n, scaled e (fun i => M.dist q (pts i)) i ≤ M.dist q (pts i) :=
    fun i hi => scaled_le he (dist := fun i => M.dist q (pts i)) (hnn i hi)
  have key : ∀ {σ : Type} (V : Visitor α σ) (s : σ) (k : Nat) (f : Nat → α), 0 < k →
      CountMax V (fun i => M.dist q (pts i)) f (· < n) s k N.big →
      (∀ i < n, ∀ b < n, M.one (q a - pts i a) ≤ f b) → (T.looked q V s).length = n := by
    intro σ V s k f hk hV hf
    have hmem : ∀ i < n, i ∈ T.looked q V s := by
      intro i hi
      refine c102_reached hM h hR hn q V s (M.one (q a - pts i a)) (fun w hw => ?_) hi
        (y := Function.update q a (pts i a)) ?_ (hpart i hi).le
      · have hwn : ∀ i ∈ w, i < n := by
          intro i hi
          have := (c100_answer T q V s).2.2
          rw [hel] at this
          exact List.mem_range.1 ((this.trans hperm.subperm).subset (hw.subset hi))
        by_contra hneg
        rw [not_le] at hneg
        have hb0 : M.one (q a - pts i a) < N.big := (hle i hi i hi).trans_lt ((hsc i hi).trans_lt (hbig i hi))
        have := ((hV w hwn).2 _ (hneg.trans hb0)).1 le_rfl
        obtain ⟨b, hb, hle'⟩ := List.countP_pos_iff.1 (lt_of_lt_of_le hk this)
        have hle' := of_decide_eq_true hle'
        exact absurd (hf i hi b (hwn b hb)) (not_le.2 (hle'.trans_lt hneg))
      · refine tightCell_only (a := a) (y := pts i) (by simp) hline ?_
        simpa using Built.tightCell_self hB [] [] rfl i
    have h1 := (c100_answer T q V s).2.2
    rw [hel] at h1
    have h2 := (h1.trans hperm.subperm).length_le
    rw [List.length_range] at h2
    have h3 := (List.nodup_range.subperm fun i hi => hmem i (List.mem_range.1 hi)).length_le
    rw [List.length_range] at h3
    exact le_antisymm h2 h3
  refine ⟨fun nn => ?_, fun nn => ?_, fun buf s hs => ?_, fun buf s hs => ?_⟩
  · exact key nnVisitor _ 1 _ one_pos (countMax_nn _ _ _ _) fun i hi k hk => (hle i hi k hk).trans (hsc k hk)
  · refine key (approxNnVisitor e) _ 1 (scaled e fun i => M.dist q (pts i)) one_pos ?_ hle
    intro w hw
    exact countMax_nn N (scaled e fun i => M.dist q (pts i)) nn (· < n) w hw
  · refine key _ _ _ (fun i => M.dist q (pts i)) (knnInit_pos hs) ?_ fun i hi k hk => (hle i hi k hk).trans (hsc k hk)
    intro w hw
    exact countMax_knn N (fun i => M.dist q (pts i)) (knnInit_pos hs) hs w fun i hi => hbig i (hw i hi)
  · refine key _ _ _ (scaled e fun i => M.dist q (pts i)) (knnInit_pos hs) ?_ hle
    intro w hw
    exact countMax_knn N (scaled e fun i => M.dist q (pts i)) (knnInit_pos hs) hs w
      fun i hi => (hsc i (hw i hi)).trans_lt (hbig i (hw i hi))

end Flat

/-- Points at equal distances on a part of length `1 / e` of the first axis. -/
def ruler (n : Nat) (e : ℚ) : Nat → Pt ℚ 2 := fun i => ![i / (n * e), 0]

/-- The claim is false in the plane for distinct points and balanced trees, too. For every constant and every error ratio
there are points for which the tree of the median rule has height at most `log₂ n`, and a query at which exact and
approximate searches look at all `n` points, which is more than the constant times `log₂ n + 1`. -/
theorem c116_plane_false (c : Nat) {e : ℚ} (he : 1 ≤ e) :
    ∃ (n : Nat) (T : KdTree ℚ 2 (Branch1 ℚ 2)) (fuel : Nat),
      KdTree.make (euclideanTag ℚ 2) (metricL2Sq ℚ 2) Ref.ratNum (ruler n e) n (Ref.optsMedian ℚ 2) fuel = .ok T ∧
      (∀ i < n, ∀ k < n, ruler n e i = ruler n e k → i = k) ∧ height T.data.root ≤ Nat.log 2 n ∧
      c * (Nat.log 2 n + 1) < n ∧
      (∀ nn, (T.looked ![0, 1] nnVisitor (nnInit Ref.ratNum nn)).length = n) ∧
      ∀ nn, (T.looked ![0, 1] (approxNnVisitor e) (nnInit Ref.ratNum nn)).length = n := by
  obtain ⟨n, hnt⟩ : ∃ n, n = 2 ^ (2 * c + 1) := ⟨_, rfl⟩
  have hn : 0 < n := hnt ▸ Nat.two_pow_pos _
  have he0 : 0 < e := lt_of_lt_of_le one_pos he
  have hne : (0 : ℚ) < n * e := mul_pos (by exact_mod_cast hn) he0
  have hx : ∀ i < n, (0 : ℚ) ≤ i / (n * e) ∧ (i : ℚ) / (n * e) ≤ 1 / e := by
    intro i hi
    refine ⟨div_nonneg (by positivity) hne.le, ?_⟩
    rw [div_le_div_iff₀ hne he0, one_mul]
    have : (i : ℚ) ≤ n := by exact_mod_cast hi.le
    exact mul_le_mul_of_nonneg_right this he0.le
  have h1e : 1 / e ≤ 1 := by rw [div_le_one he0]; exact he
  have hp : ∀ i < n, ∀ j, (0 : ℚ) ≤ ruler n e i j ∧ ruler n e i j ≤ 1 := by
    intro i hi j
    fin_cases j
    · exact ⟨(hx i hi).1, (hx i hi).2.trans h1e⟩
    · simp [ruler]
  obtain ⟨fuel, T, hT⟩ := c22_terminates_partial (n := n) (N := Ref.ratNum)
    (pts := ruler n e) (o := Ref.optsMedian ℚ 2) (euclideanTag ℚ 2) (metricL2Sq ℚ 2)
    (a := 0) (b := 1)
    (splitSafe_field (fun x => by simp only [Ref.ratNum]; ring) (fun x => rfl)
      (by norm_num [Ref.ratNum]))
    (by decide) hn (by simp [Ref.optsMedian])
    (by intro m hm; simp only [Ref.optsMedian, Stop.maxLeafSize.injEq] at hm; subst hm
        exact ⟨by norm_num, by norm_num [Ref.optsMedian]⟩)
    hp (by norm_num [Ref.ratNum]) (by simp [Ref.optsMedian])
  have h := hT fuel le_rfl
  have hR : Representable Ref.ratNum (ruler n e) n (Ref.optsMedian ℚ 2) :=
    ⟨by norm_num [Ref.ratNum], fun i hi j =>
      ⟨le_trans (by norm_num [Ref.ratNum]) (hp i hi j).1, (hp i hi j).2.trans (by norm_num [Ref.ratNum])⟩,
      trivial, by simp [Ref.optsMedian]⟩
  have hinj : ∀ i < n, ∀ k < n, ruler n e i 0 = ruler n e k 0 → i = k := by
    intro i _ k _ hik
    simp only [ruler, Matrix.cons_val_zero] at hik
    rw [div_left_inj' hne.ne'] at hik
    exact_mod_cast hik
  have hdist : ∀ i, (metricL2Sq ℚ 2).dist ![0, 1] (ruler n e i) = (i / (n * e)) * (i / (n * e)) + 1 := by
    intro i
    rw [additive_l2Sq.dist_eq, Fin.sum_univ_two]
    simp [metricL2Sq, squared, ruler]
  have hall := c116_beside additive_l2Sq (by simp [metricL2Sq, squared]) h hR hn rfl 0 hinj (by
      intro i _ k _ j hj
      fin_cases j
      · simp at hj
      · simp [ruler]) ![0, 1] (by
      intro i hi
      rw [hdist]
      have a := hx i hi
      have : (i / (n * e)) * (i / (n * e)) ≤ (1 : ℚ) := by nlinarith
      exact lt_of_le_of_lt (add_le_add this le_rfl) (by norm_num [Ref.ratNum])) he (by
      intro i hi k _
      rw [hdist]
      have a := hx i hi
      have b := mul_self_nonneg ((k : ℚ) / (n * e))
      have g : e * ((i / (n * e)) * (i / (n * e))) ≤ 1 := by
        have : ((i : ℚ) / (n * e)) * (i / (n * e)) ≤ 1 / e * 1 :=
          mul_le_mul a.2 (a.2.trans h1e) a.1 (by positivity)
        calc e * ((i / (n * e)) * (i / (n * e))) ≤ e * (1 / e * 1) := mul_le_mul_of_nonneg_left this he0.le
          _ = 1 := by field_simp
      have : (metricL2Sq ℚ 2).one ((![0, 1] : Pt ℚ 2) 0 - ruler n e i 0) = (i / (n * e)) * (i / (n * e)) := by
        simp [metricL2Sq, squared, ruler]
      rw [this]
      linarith)
  refine ⟨n, T, fuel, h, fun i hi k hk hik => hinj i hi k hk (by rw [hik]), ?_, ?_, hall.1, hall.2.1⟩
  · refine c21_height_partial h rfl (m := 2) rfl (by norm_num [Ref.optsMedian]) _ ?_
    rw [hnt, Nat.log_pow (by decide)]
    omega
  · rw [hnt, Nat.log_pow (by decide)]
    have l1 : c + 1 ≤ 2 ^ c := Nat.lt_two_pow_self
    have l2 := Nat.mul_le_mul l1 l1
    have e : 2 ^ (2 * c + 1) = 2 * (2 ^ c * 2 ^ c) := by rw [pow_succ, two_mul, pow_add]; ring
    rw [e]
    nlinarith

/-- Eight points in the plane on the first axis and the sliding midpoint rule: a query above them looks at all, the one
between them at one leaf. -/
example :
    ∃ T, KdTree.make (euclideanTag ℚ 2) (metricL2Sq ℚ 2) Ref.ratNum (ruler 8 2) 8 (Ref.optsSliding ℚ 2) 20 = .ok T ∧
      (T.looked ![0, 1] (approxNnVisitor 2) (nnInit Ref.ratNum ⟨0, 0⟩)).length = 8 ∧
      (T.looked ![0, 0] (approxNnVisitor 2) (nnInit Ref.ratNum ⟨0, 0⟩)).length = 1 := by
  obtain ⟨T, h, hp⟩ := Outcome.exists_of_check
    (x := KdTree.make (euclideanTag ℚ 2) (metricL2Sq ℚ 2) Ref.ratNum (ruler 8 2) 8 (Ref.optsSliding ℚ 2) 20)
    (p := fun T => decide ((T.looked ![0, 1] (approxNnVisitor 2) (nnInit Ref.ratNum ⟨0, 0⟩)).length = 8 ∧
      (T.looked ![0, 0] (approxNnVisitor 2) (nnInit Ref.ratNum ⟨0, 0⟩)).length = 1)) (by decide +kernel)
  exact ⟨T, h, of_decide_eq_true hp⟩

end Pico.Props
