import Verif.Proof.Grid

/-!
# Searches that are exact for near points only

If distances up to a limit are exact and all others are at least the limit, then a search whose final `max()` does not
exceed the limit is finished in the sense of `Final`.
-/

set_option linter.unusedSectionVars false

namespace Pico

section
variable {α : Type} [LinearOrder α] [Zero α] [Add α] [Sub α] {d : Nat} {β : Type}
  {T : KdTree α d β} {q : Pt α d} {Near : Nat → Prop} {lim : α}

theorem NearAt.final (h : NearAt T q Near)
    (hfar : ∀ i < T.n, ¬ Near i → lim ≤ T.metric.dist q (T.pts i)) {σ : Type} (V : Visitor α σ) (Inv : σ → Prop) (s : σ)
    (hV : Shrinks V (fun i => T.metric.dist q (T.pts i)) (· < T.n) Inv) (hs : Inv s)
    (hmax : V.max (T.searchNearest q V s) ≤ lim) :
    Final T.n (fun i => T.metric.dist q (T.pts i)) V s (T.searchNearest q V s) := by
  obtain ⟨vis, skip, hp, he, hk⟩ := h σ V Inv s hV hs
  refine ⟨vis, skip, hp, he, fun i hi => ?_⟩
  by_cases near : Near i
  · exact (hk i hi near).le
  · exact hmax.trans (hfar i ((perm_range_mem hp i).2 (.inr hi)) near)

/-- `search_nn` is exact if a point lies within the limit. -/
theorem NearAt.nn (h : NearAt T q Near)
    (hfar : ∀ i < T.n, ¬ Near i → lim ≤ T.metric.dist q (T.pts i))
    (hbig : ∀ i < T.n, T.metric.dist q (T.pts i) < T.num.big)
    {i : Nat} (hi : i < T.n) (near : Near i) (hlim : T.metric.dist q (T.pts i) ≤ lim) (nn : Neighbor α) :
    Spec.IsNN T.n (fun i => T.metric.dist q (T.pts i)) (T.searchNn q nn) := by
  have hV : Shrinks nnVisitor (fun i => T.metric.dist q (T.pts i)) (· < T.n) (fun _ => True) :=
    fun s i _ hs => shrinks_nn (fun i => T.metric.dist q (T.pts i)) s i trivial hs
  refine Final.nn (h.final hfar nnVisitor (fun _ => True) (nnInit T.num nn) hV trivial ?_) (by omega) hbig
  refine le_trans ?_ hlim
  obtain ⟨vis, skip, hp, he, hk⟩ := h _ nnVisitor _ (nnInit T.num nn) hV trivial
  rcases (perm_range_mem hp i).1 hi with hv | hv
  · rw [he]
    rcases nn_visitAll (fun i => T.metric.dist q (T.pts i)) vis (nnInit T.num nn) with ⟨h1, h2⟩ | ⟨k, _, h1, _, h3⟩
    · rw [h1]; exact h2 i hv
    · rw [h1]; exact h3 i hv
  · exact (hk i hv near).le

/-- If the elements of `rest` do not satisfy `p`, and `p` holds as often as `l` is long, then it holds on `l`. -/
theorem all_of_count {γ : Type} (p : γ → Bool) {l rest : List γ} (hr : ∀ b ∈ rest, p b = false)
    (hc : l.length ≤ (l ++ rest).countP p) : ∀ a ∈ l, p a = true := by
  rw [List.countP_append, (List.countP_eq_zero.2 fun b hb => by simp [hr b hb] : rest.countP p = 0), Nat.add_zero] at hc
  exact List.countP_eq_length.1 (le_antisymm List.countP_le_length hc)

/-- Counting the points of a list that satisfy `p`. -/
theorem le_countP {p : Nat → Bool} {near l : List Nat} (hn : near.Nodup) (hs : ∀ i ∈ near, i ∈ l ∧ p i = true) :
    near.length ≤ l.countP p := by
  rw [List.countP_eq_length_filter]
  exact (List.subperm_of_subset hn fun i hi => List.mem_filter.2 (hs i hi)).length_le

/-- `search_knn` is exact if enough points lie within the limit. -/
theorem NearAt.knn (h : NearAt T q Near)
    (hfar : ∀ i < T.n, ¬ Near i → lim ≤ T.metric.dist q (T.pts i))
    (hbig : ∀ i < T.n, T.metric.dist q (T.pts i) < T.num.big) (k : Nat) (hk : 0 < k) (hn : 0 < T.n)
    {near : List Nat} (hnd : near.Nodup)
    (hnear : ∀ i ∈ near, i < T.n ∧ Near i ∧ T.metric.dist q (T.pts i) ≤ lim) (hlen : min k T.n ≤ near.length)
    (knn : List (Neighbor α)) :
    ∃ out, T.searchKnn q k knn = .ok out ∧ Spec.IsKnn T.n k (fun i => T.metric.dist q (T.pts i)) out := by
  have hbuf := resize_length (min k T.n) knn
  set buf := KdTree.resize (min k T.n) knn with hbufdef
  have hpos : 0 < buf.length := by rw [hbuf]; omega
  obtain ⟨init, hi, hil, hlast, -, -, hinv⟩ := knnInit_inv T.num buf hpos
  have hV : Shrinks (knnVisitor T.num) (fun i => T.metric.dist q (T.pts i)) (· < T.n)
      (fun s => ∃ seen L R, KnnInv T.num init seen s L R) :=
    fun s i hi hs => shrinks_knn T.num (fun i => T.metric.dist q (T.pts i)) init hlast s i (hbig i hi) hs
  have hmax : (knnVisitor T.num).max (T.searchNearest q (knnVisitor T.num) ⟨init, 0⟩) ≤ lim := by
    obtain ⟨vis, skip, hp, he, hsk⟩ := h _ (knnVisitor T.num) _ ⟨init, 0⟩ hV ⟨[], [], [], hinv⟩
    have hmem := perm_range_mem hp
    obtain ⟨L, R, hL⟩ := knn_visitAll T.num (fun i => T.metric.dist q (T.pts i)) init hlast vis
      (fun i hi => hbig i ((hmem i).2 (Or.inl hi))) hinv
    rw [List.nil_append] at hL
    by_contra hc
    push Not at hc
    -- all near points were presented
    have hvis : ∀ i ∈ near, i ∈ vis := by
      intro i hin
      obtain ⟨a1, a2, a3⟩ := hnear i hin
      rcases (hmem i).1 a1 with hv | hv
      · exact hv
      · exact absurd (hsk i hv a2) (not_lt.2 (a3.trans hc.le))
    have hcount : near.length ≤ (L ++ R).countP fun x => decide (x.distance ≤ lim) := by
      rw [hL.perm.countP_eq, List.countP_map]
      exact le_countP hnd fun i hin => ⟨hvis i hin, by simpa using (hnear i hin).2.2⟩
    have hfull : L.length = init.length := by
      by_contra hne
      have hR : R = [] := by
        by_contra hc; exact hne (hL.full hc)
      rw [hR, List.append_nil] at hcount
      have := hcount.trans List.countP_le_length
      have := hL.le
      omega
    obtain ⟨L0, z, hz, hm⟩ := knnMax_full hL hfull (by omega)
    have hmz : lim < z.distance := by
      rw [he] at hc
      have : (knnVisitor T.num).max (visitAll (knnVisitor T.num) (fun i => T.metric.dist q (T.pts i)) vis ⟨init, 0⟩) =
        z.distance := hm
      rwa [this] at hc
    have hzL : z ∈ L := by rw [hz]; simp
    have := all_of_count (fun x : Neighbor α => decide (x.distance ≤ lim)) (l := L) (rest := R)
      (fun b hb => by simpa using lt_of_lt_of_le hmz (hL.rejected z hzL b hb)) (by omega) z hzL
    simp only [decide_eq_true_eq] at this
    exact absurd hmz (not_lt.2 this)
  obtain ⟨L, h1, hL⟩ := Final.knn hi (h.final hfar (knnVisitor T.num) _ ⟨init, 0⟩ hV ⟨[], [], [], hinv⟩ hmax) hbig hpos
  have hLlen := hL.length
  rw [hbuf] at hLlen
  refine ⟨L, ?_, ?_, hL.sorted, hL.rest⟩
  · unfold KdTree.searchKnn KdTree.searchKnnRange
    rw [← hbufdef, hi]
    simp only [Outcome.bind, Outcome.ok.injEq]
    rw [h1, List.drop_eq_nil_of_le, List.append_nil]
    rw [List.length_modify, hbuf, hLlen]
    omega
  · rw [hLlen]; omega

/-- `search_radius` is exact for radii up to the limit. -/
theorem NearAt.radius (h : NearAt T q Near)
    (hfar : ∀ i < T.n, ¬ Near i → lim ≤ T.metric.dist q (T.pts i)) (sorter : StdSort (Neighbor α)) (r : α)
    (hr : r ≤ lim) (n : List (Neighbor α)) (sort : Bool) :
    Spec.IsRadius T.n (fun i => T.metric.dist q (T.pts i)) r (T.searchRadius sorter q r n sort) :=
  (isRadius_sort sorter (h.final hfar (radiusVisitor r) (fun _ => True) (radiusInit n)
    (fun s i _ hs => shrinks_radius (fun i => T.metric.dist q (T.pts i)) r s i trivial hs)
    trivial hr).radius sort).1

end

section
variable {α : Type} [LinearOrder α] [Zero α] [Add α] [Sub α] {d : Nat}
  {K : Type} [CommRing K] [LinearOrder K] [IsStrictOrderedRing K] {val : α → K} {G : AddSubgroup K} {lim : K}

/-- Euclidean searches are exact for the points whose sums of distances are. -/
theorem nearAt_grid (E : ExactSums val G lim) {M : Metric α d} {N : Num α} {pts : Nat → Pt α d} {n : Nat}
    {o : BuildOpts α d} {fuel : Nat} {T : KdTree α d (Branch1 α d)}
    (h : KdTree.make (euclideanTag α d) M N pts n o fuel = .ok T) (hR : Representable N pts n o)
    (hn : 0 < n) (hr : o.rule ≠ .midpoint) (q : Pt α d) (Near : Nat → Prop)
    (hdist : ∀ i < n, M.dist q (pts i) = loopSum fun j => M.one (q j - pts i j))
    (hsymm : ∀ i < n, ∀ j, M.one (pts i j - q j) = M.one (q j - pts i j))
    (hG : ∀ i < n, ∀ j, val (M.one (q j - pts i j)) ≤ lim → val (M.one (q j - pts i j)) ∈ G)
    (h0 : ∀ i < n, ∀ j, 0 ≤ val (M.one (q j - pts i j)))
    (hlim : ∀ i < n, Near i → ∑ j, val (M.one (q j - pts i j)) ≤ lim)
    (hguard : Guard (euclideanTag α d).splitDim ((euclideanTag α d).pick M q) T.data.indices
      (fun j i => M.one (q j - pts i j)) T.data.root) :
    NearAt T q Near ∧ ∀ i < n, Near i → val (M.dist q (pts i)) = ∑ j, val (M.one (q j - pts i j)) := by
  have hval : ∀ i < n, Near i → val (M.dist q (pts i)) = ∑ j, val (M.one (q j - pts i j)) := by
    intro i hi near
    rw [hdist i hi]
    refine E.loopSum _ (fun j => hG i hi j ?_) (h0 i hi) (hlim i hi near)
    exact (Finset.single_le_sum (fun j _ => h0 i hi j) (Finset.mem_univ j)).trans (hlim i hi near)
  obtain ⟨_, _, _, _, _, hb⟩ := KdTree.make_ok h
  obtain ⟨_, box, hcr⟩ := buildTree_created hb
  have hc := hcr.guardCoord (n := n) rfl hR.num hr M q (fun i hi => List.mem_range.1 hi) hR.points [] [] rfl
  simp only [List.nil_append, List.append_nil] at hc
  refine ⟨nearAt_sums E h hR hn q (fun j i => M.one (q j - pts i j)) Near hval hG h0 hlim hguard
    (hc.mono ?_), hval⟩
  rintro data - ⟨k, hk, e⟩
  exact .inr ⟨k, hk, e.trans (hsymm k hk _)⟩

end

end Pico
