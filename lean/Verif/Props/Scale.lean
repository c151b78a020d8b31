import Verif.Proof.Scale
import Verif.Proof.Ext
import Verif.Proof.Grid
import Verif.Props.Similar
import Verif.Props.Rounding
import Verif.Props.Saturate

/-!
# C111: multiplying all coordinates by a power of two

In floating point arithmetic a power of two only changes the exponents.  As long as nothing underflows or overflows the
tree and the answers are the same, bit by bit, apart from the exponents.
-/

set_option linter.unusedSectionVars false

namespace Pico

section
variable {K : Type} [Field K] [LinearOrder K] [IsStrictOrderedRing K] {R : Rounding K} {d : Nat} {s B low big : R.F}

/-- A point multiplied by `s`. -/
def Pt.scale {α : Type} [Mul α] (s : α) (x : Pt α d) : Pt α d := fun j => s * x j

/-- A tree with all coordinates multiplied by `s`. -/
def KdTree.scale {α : Type} [Mul α] (s : α) (T : KdTree α d (Branch1 α d)) : KdTree α d (Branch1 α d) :=
  ⟨T.tag, T.metric, T.num, fun i => Pt.scale s (T.pts i), T.n, T.data.map (s * ·) (Branch1.mapped (s * ·))⟩

/-- Coordinates of given bounds up to `B`. -/
def BoundsUpToB (B : R.F) : Bounds R.F d → Prop
  | .fromSpace => True
  | .given mn mx => ∀ j, UpTo B (mn j) ∧ UpTo B (mx j)

/-- Two maps that agree on the coordinates of the tree. -/
theorem Tight.map_congr {α γ : Type} [LinearOrder α] {pts : Nat → Pt α d} {lo hi : α} {o : Nat}
    {t : Tree (Branch1 α d)} {seg : List Nat} {box : Box α d} (h : Tight pts setBranchEuclidean lo hi o t seg box)
    {e e' : α → γ} (he : ∀ x, lo ≤ x → x ≤ hi → e x = e' x) :
    t.map (Branch1.mapped e) = t.map (Branch1.mapped e') := by
  induction h with
  | leaf _ _ => rfl
  | @branch o l r segL segR boxL boxR dim hl hr hlr ih1 ih2 =>
    have wl := hl.within dim
    have wr := hr.within dim
    simp only [Tree.map, ih1, ih2, Branch1.mapped, setBranchEuclidean,
      he _ (wl.1.trans wl.2.1) wl.2.2, he _ wr.1 (wr.2.1.trans wr.2.2)]

namespace Props

variable {M : Metric R.F d} {pts : Nat → Pt R.F d} {n : Nat} {o : BuildOpts R.F d} {fuel : Nat}

theorem scale_box (h : ScaleRoom (R.num low big) s B) (hp : ∀ i j, UpTo B (pts i j)) (hb : BoundsUpToB B o.bounds)
    (hn : 0 < n) : (boxFromBounds (R.num low big) pts n o.bounds).Within (-B) B ∧
      Representable (R.num low big) pts n o := by
  have hB := h.nonneg
  have hbb : 2 * B.1 < big.1 := h.big
  have hbl : low.1 < -(2 * B.1) := h.low
  have hin : ∀ x : R.F, UpTo B x → InRange (R.num low big) x := fun x hx =>
    ⟨show low.1 ≤ x.1 by linarith [hx.1], show x.1 ≤ big.1 by linarith [hx.2]⟩
  have hR : Representable (R.num low big) pts n o := by
    refine ⟨show low.1 ≤ big.1 by linarith, fun i _ j => hin _ (hp i j), ?_, fun _ => R.midOk _ _⟩
    cases hbd : o.bounds with
    | fromSpace => trivial
    | given mn mx =>
      rw [hbd] at hb
      exact fun j => ⟨hin _ (hb j).1, hin _ (hb j).2⟩
  have hc := boxFromBounds_cellOk hn hR.points hR.bounds
  refine ⟨fun j => ⟨?_, (hc j).1, ?_⟩, hR⟩
  · have h0 : -B ≤ (R.num low big).big := le_trans (show -B ≤ pts 0 j from (hp 0 j).1) (hin _ (hp 0 j)).2
    cases hbd : o.bounds with
    | fromSpace => exact (foldl_fitPt_min pts _ _ j _).2 ⟨h0, fun i _ => (hp i j).1⟩
    | given mn mx =>
      rw [hbd] at hb
      rw [boxFromBounds_given_min]
      exact le_min (le_min h0 (hb j).1.1) (hb j).2.1
  · have h0 : (R.num low big).low ≤ B := le_trans (hin _ (hp 0 j)).1 (show pts 0 j ≤ B from (hp 0 j).2)
    cases hbd : o.bounds with
    | fromSpace => exact (foldl_fitPt_max pts _ _ j _).2 ⟨h0, fun i _ => (hp i j).2⟩
    | given mn mx =>
      rw [hbd] at hb
      rw [boxFromBounds_given_max]
      exact max_le (max_le h0 (hb j).1.2) (hb j).2.2

/-- C111 for the construction: over multiplied points it ends in the same way (with the same fuel), with the same
indices, leaves and split axes, and multiplied boxes and borders. -/
theorem c111_tree_partial (hs : R.Scales s.1)
    (hhalf : o.rule ≠ .median → ∀ x, R.rd x = x → R.rd (s.1 * (x / 2)) = s.1 * R.rd (x / 2))
    (room : ScaleRoom (R.num low big) s B) (hp : ∀ i j, UpTo B (pts i j)) (hb : BoundsUpToB B o.bounds) (hn : 0 < n) :
    KdTree.make (euclideanTag R.F d) M (R.num low big) (fun i => Pt.scale s (pts i)) n (o.map (s * ·)) fuel =
      (KdTree.make (euclideanTag R.F d) M (R.num low big) pts n o fuel).map (KdTree.scale s) := by
  obtain ⟨hw, hR⟩ := scale_box room hp hb hn
  have hall : (boxFromBounds (R.num low big) pts n o.bounds).All (UpTo B) := fun j =>
    ⟨⟨(hw j).1, (hw j).2.1.trans (hw j).2.2⟩, ⟨(hw j).1.trans (hw j).2.1, (hw j).2.2⟩⟩
  have hV : ∀ mn mx, o.bounds = .given mn mx → ∀ j, UpTo B (mn j) ∧ UpTo B (mx j) := by
    intro mn mx h
    rw [h] at hb
    exact hb
  have key := (scale_embeds hs hhalf room).make (tag := euclideanTag R.F d) (tag' := euclideanTag R.F d) (M := M)
    (M' := M) (o := o) rfl (Branch1.mapped (scaleMap (R.num low big) s)) (fun _ _ _ => rfl) hp hV hall fuel
  have e1 : (fun i j => scaleMap (R.num low big) s (pts i j)) = fun i => Pt.scale s (pts i) := by
    funext i j
    exact scaleMap_of_upTo room (hp i j)
  have e2 : o.map (scaleMap (R.num low big) s) = o.map (s * ·) := by
    unfold BuildOpts.map
    congr 1
    cases hbd : o.bounds with
    | fromSpace => rfl
    | given mn mx =>
      have a1 : (fun j => scaleMap (R.num low big) s (mn j)) = fun j => s * mn j :=
        funext fun j => scaleMap_of_upTo room (hV mn mx hbd j).1
      have a2 : (fun j => scaleMap (R.num low big) s (mx j)) = fun j => s * mx j :=
        funext fun j => scaleMap_of_upTo room (hV mn mx hbd j).2
      simp only [Bounds.map, a1, a2]
  rw [e1, e2] at key
  rw [key]
  cases hm : KdTree.make (euclideanTag R.F d) M (R.num low big) pts n o fuel with
  | ub => rfl
  | oof => rfl
  | ok T =>
    obtain ⟨h1, h2, h3, h4, h5, hbt⟩ := KdTree.make_ok hm
    obtain ⟨hrb, box, hcr⟩ := buildTree_created hbt
    have hT := hcr.tight (C := KdTree.cfg (euclideanTag R.F d) (R.num low big) pts o) (lo := -B) (hi := B)
      (fun _ => R.midOk _ _) (stopOk_of_created hcr (by simpa using hn))
      (show low.1 ≤ -B.1 by have : low.1 < -(2 * B.1) := room.low; linarith [room.nonneg])
      (show B.1 ≤ big.1 by have : 2 * B.1 < big.1 := room.big; linarith [room.nonneg])
      (show -B.1 ≤ B.1 by linarith [room.nonneg]) (fun i _ j => hp i j) (fun _ => hw) (fun _ => by simpa using hn)
    simp only [Outcome.map, KdTree.scale, h1, h2, h3, h4, h5, TreeData.map]
    have e3 := hT.map_congr (e := scaleMap (R.num low big) s) (e' := (s * ·))
      (fun x hx1 hx2 => scaleMap_of_upTo room ⟨hx1, hx2⟩)
    have e4 : T.data.rootBox.map (scaleMap (R.num low big) s) = T.data.rootBox.map (s * ·) := by
      rw [hrb]
      unfold Box.map
      congr 1
      · funext j; exact scaleMap_of_upTo room (hall j).1
      · funext j; exact scaleMap_of_upTo room (hall j).2
    rw [e3, e4]

end Props

end

namespace Props

section Search
variable {K : Type} [Field K] [LinearOrder K] [IsStrictOrderedRing K] {R : Rounding K} {d : Nat} {s c : R.F} {u : K}
  {M : Metric R.F d} {N : Num R.F} {pts : Nat → Pt R.F d} {n : Nat} {o : BuildOpts R.F d} {fuel : Nat}
  {T : KdTree R.F d (Branch1 R.F d)}

theorem scale_dist (hM : AxisMetric M) (hs : R.Scales s.1) (hc : R.Scales c.1) (x y : Pt R.F d)
    (hone : ∀ j, M.one (s * (x j - y j)) = c * M.one (x j - y j)) : M.dist (Pt.scale s x) (Pt.scale s y) = c * M.dist x y := by
  rw [hM.dist_eq, hM.dist_eq, ← hc.loopSum]
  congr 1
  funext j
  rw [← hone, hs.mul_sub]
  rfl

theorem scale_pick (hs : R.Scales s.1) (q : Pt R.F d) (b : Branch1 R.F d)
    (hl : M.one (s * (b.leftMax - q b.splitDim)) = c * M.one (b.leftMax - q b.splitDim))
    (hr : M.one (s * (b.rightMin - q b.splitDim)) = c * M.one (b.rightMin - q b.splitDim)) : pickEuclidean M (Pt.scale s q) (Branch1.mapped (s * ·) b) =
      ((pickEuclidean M q b).1, c * (pickEuclidean M q b).2) := by
  unfold pickEuclidean Branch1.mapped Pt.scale
  dsimp only
  have e : s * b.leftMax + s * b.rightMin - s * q b.splitDim - s * q b.splitDim =
      s * (b.leftMax + b.rightMin - q b.splitDim - q b.splitDim) := by
    rw [hs.mul_sub, hs.mul_sub, hs.mul_add]
  rw [e]
  simp only [gt_iff_lt, hs.pos_iff, ← hs.mul_sub, hl, hr]
  split_ifs <;> rfl

/-- The searches visit the same points, whatever the visitors, as long as `max()` compares in the same way with every
running distance up to the bound. -/
theorem search_scale (hu : R.Error u) (hu0 : 0 ≤ u) (hu1 : u ≤ 1) (hM : AxisMetric M) (hs : R.Scales s.1)
    (hc : R.Scales c.1)
    (h : KdTree.make (euclideanTag R.F d) M N pts n o fuel = .ok T) (hR : Representable N pts n o) (hn : 0 < n)
    (q : Pt R.F d) (hone : ∀ i < n, ∀ j, M.one (s * (q j - pts i j)) = c * M.one (q j - pts i j))
    (hb : T.data.root.Every fun b => pickEuclidean M (Pt.scale s q) (Branch1.mapped (s * ·) b) =
      ((pickEuclidean M q b).1, c * (pickEuclidean M q b).2)) {σ σ' : Type} (V : Visitor R.F σ) (W : Visitor R.F σ') (Rel : σ → σ' → Prop)
    (hvisit : ∀ u w, ∀ i < n, Rel u w → Rel (V.visit u i (M.dist q (pts i))) (W.visit w i (c * M.dist q (pts i))))
    (hmax : ∀ v w, ∀ i < n, ∀ D : R.F, Rel v w →
      (1 - u) ^ d * D.1 ≤ (1 + u) ^ (2 * Spec.height T.data.root) * (M.dist q (pts i)).1 →
      (D ≤ V.max v ↔ c * D ≤ W.max w))
    (v : σ) (w : σ') (hRel : Rel v w) :
    Rel (T.searchNearest q V v) ((T.scale s).searchNearest (Pt.scale s q) W w) ∧
      (T.scale s).looked (Pt.scale s q) W w = T.looked q V v := by
  obtain ⟨hperm, _, ⟨box, hB⟩, hel⟩ := KdTree.make_built h hR hn
  obtain ⟨h1, h2, h3, h4, h5, _⟩ := KdTree.make_ok h
  have hg := guard_axis R.laws hM q hB [] [] rfl
  simp only [List.nil_append, List.append_nil] at hg
  have hlt : ∀ i ∈ T.data.root.elems T.data.indices, i < n := by
    intro i hi
    rw [hel] at hi
    exact List.mem_range.1 (hperm.subset hi)
  have hterm : ∀ j i, 0 ≤ M.one (q j - pts i j) := fun j i => hM.nonneg _
  have hS0 : ∀ i, 0 ≤ ∑ j, (M.one (q j - pts i j)).1 := fun i => Finset.sum_nonneg fun j _ => hterm j i
  have hpick : ∀ b, 0 ≤ (pickEuclidean M q b).2 := by
    intro b
    simp only [pickEuclidean]
    split_ifs <;> exact hM.nonneg _
  obtain ⟨u', w', ⟨k1, k2⟩, k3, k4⟩ := searchNearest_scaled (euclideanTag R.F d).splitDim (pickEuclidean M q)
    (pickEuclidean M (Pt.scale s q)) (recording V) (recording W) (fun i => M.dist q (pts i))
    (fun i => M.dist (Pt.scale s q) (Pt.scale s (pts i))) T.data.indices (Branch1.mapped (s * ·)) c (fun _ => rfl)
    (fun a b x => by rw [hc.mul_add, hc.mul_sub]) (· < n)
    (fun x y => Rel x.1 y.1 ∧ y.2 = x.2) (fun j i => M.one (q j - pts i j))
    (fun m D off i => Drift u (∑ j, (M.one (q j - pts i j)).1) m D off) (Spec.height T.data.root)
    (fun m D off i h => h.mono hu0 (hS0 i))
    (fun m D off i data _ h a3 a4 => h.step hu hu0 (fun j => hterm j i) a3 (hpick data) a4)
    (fun x y i hi h => ⟨by
        have := hvisit x.1 y.1 i hi h.1
        rw [← scale_dist hM hs hc q (pts i) (hone i hi)] at this
        exact this, by simp only [recording, h.2]⟩)
    (fun x y i D off hi h hdr hoff => hmax x.1 y.1 i hi D h.1 (by
      have a1 := hdr.le hoff
      have a2 := loopSum_ge hu hu0 hu1 _ fun j => hterm j i
      rw [← hM.dist_eq] at a2
      have hp0 : 0 ≤ (1 - u) ^ d := pow_nonneg (by linarith) _
      calc (1 - u) ^ d * D.1 ≤ (1 - u) ^ d * ((1 + u) ^ (2 * Spec.height T.data.root) *
            ∑ j, (M.one (q j - pts i j)).1) := mul_le_mul_of_nonneg_left a1 hp0
        _ = (1 + u) ^ (2 * Spec.height T.data.root) * ((1 - u) ^ d * ∑ j, (M.one (q j - pts i j)).1) := by ring
        _ ≤ _ := mul_le_mul_of_nonneg_left a2 (pow_nonneg (by linarith) _)))
    T.data.root hlt hg hb 0 (by omega) 0 (fun _ => 0)
    (fun i _ => ⟨fun j => le_rfl, by simp [R.val_zero]⟩) (fun i _ j => hterm j i) (v, []) (w, []) ⟨hRel, rfl⟩
  have e1 : T.searchNearest q (recording V) (v, []) = u' := by
    unfold KdTree.searchNearest searchNearestRoot
    rw [h1, h2, h4]
    change (searchNearest (euclideanTag R.F d).splitDim (pickEuclidean M q) (recording V) (fun i => M.dist q (pts i))
      T.data.indices T.data.root 0 (fun _ => 0, (v, []))).2 = u'
    rw [k3]
  have e2 : (T.scale s).searchNearest (Pt.scale s q) (recording W) (w, []) = w' := by
    simp only [hc.mul_zero] at k4
    unfold KdTree.searchNearest searchNearestRoot KdTree.scale
    dsimp only [TreeData.map]
    rw [h1, h2, h4]
    change (searchNearest (euclideanTag R.F d).splitDim (pickEuclidean M (Pt.scale s q)) (recording W)
      (fun i => M.dist (Pt.scale s q) (Pt.scale s (pts i))) T.data.indices (T.data.root.map (Branch1.mapped (s * ·))) 0
      (fun _ => 0, (w, []))).2 = w'
    rw [k4]
  refine ⟨?_, ?_⟩
  · rw [← T.searchNearest_recording q V v, ← (T.scale s).searchNearest_recording, e1, e2]
    exact k1
  · unfold KdTree.looked
    rw [e1, e2, k2]

theorem sameSearch_scale (hu : R.Error u) (hu0 : 0 ≤ u) (hu1 : u ≤ 1) (hM : AxisMetric M) (hs : R.Scales s.1)
    (hc : R.Scales c.1)
    (h : KdTree.make (euclideanTag R.F d) M N pts n o fuel = .ok T) (hR : Representable N pts n o) (hn : 0 < n)
    (q : Pt R.F d) (hone : ∀ i < n, ∀ j, M.one (s * (q j - pts i j)) = c * M.one (q j - pts i j))
    (hb : T.data.root.Every fun b => pickEuclidean M (Pt.scale s q) (Branch1.mapped (s * ·) b) =
      ((pickEuclidean M q b).1, c * (pickEuclidean M q b).2))
    (hbig : ∀ i < n, (1 + u) ^ (2 * Spec.height T.data.root) * (M.dist q (pts i)).1 < (1 - u) ^ d * N.big.1)
    (hbig' : ∀ i < n, (1 + u) ^ (2 * Spec.height T.data.root) * (c.1 * (M.dist q (pts i)).1) < (1 - u) ^ d * N.big.1) :
    SameSearch c T (T.scale s) q (Pt.scale s q) := by
  obtain ⟨h1, h2, h3, h4, h5, _⟩ := KdTree.make_ok h
  have hpu0 : 0 ≤ (1 - u) ^ d := pow_nonneg (by linarith) _
  have hpu1 : (1 - u) ^ d ≤ 1 := pow_le_one₀ (by linarith) (by linarith)
  have hhi : 1 ≤ (1 + u) ^ (2 * Spec.height T.data.root) := one_le_pow₀ (by linarith)
  have hd0 := dist_nonneg hu hu0 hu1 hM q pts
  have hN := nearlyExact_axis hu hu0 hu1 hM h hR hn q
  have lb : ∀ i < n, M.dist q (pts i) < N.big := lt_big_of_nearly hpu0 hpu1 hhi hd0 hbig
  have lb' : ∀ i < n, c * M.dist q (pts i) < N.big :=
    lt_big_of_nearly (dist := fun i => c * M.dist q (pts i)) hpu0 hpu1 hhi
      (fun i => by rw [hc.val]; exact mul_nonneg hc.pos.le (hd0 i)) (fun i hi => by rw [hc.val]; exact hbig' i hi)
  -- running distances stay below the largest number
  have hD : ∀ i < n, ∀ D : R.F, (1 - u) ^ d * D.1 ≤ (1 + u) ^ (2 * Spec.height T.data.root) * (M.dist q (pts i)).1 →
      D < N.big ∧ c * D < N.big := by
    intro i hi D hle
    constructor
    · rw [R.lt_iff]
      exact lt_of_mul_lt_mul_left (hle.trans_lt (hbig i hi)) hpu0
    · rw [R.lt_iff, hc.val]
      refine lt_of_mul_lt_mul_left (lt_of_le_of_lt ?_ (hbig' i hi)) hpu0
      have := mul_le_mul_of_nonneg_left hle hc.pos.le
      calc (1 - u) ^ d * (c.1 * D.1) = c.1 * ((1 - u) ^ d * D.1) := by ring
        _ ≤ c.1 * ((1 + u) ^ (2 * Spec.height T.data.root) * (M.dist q (pts i)).1) := this
        _ = _ := by ring
  have S := fun {σ σ' : Type} => @search_scale K _ _ _ R d s c u M N pts n o fuel T hu hu0 hu1 hM hs hc h hR hn q
    hone hb σ σ'
  have hinc := hc.increasing
  have hknn : ∀ (buf buf' : List (Neighbor R.F)) (v v' : KnnState R.F), buf.length = buf'.length →
      knnInit N buf = .ok v → knnInit N buf' = .ok v' →
      ((∀ a ∈ (T.searchNearest q (knnVisitor N) v).buf, a.distance < N.big) →
        ((T.scale s).searchNearest (Pt.scale s q) (knnVisitor N) v').buf =
          (T.searchNearest q (knnVisitor N) v).buf.map (Neighbor.scale c)) ∧
      (T.scale s).looked (Pt.scale s q) (knnVisitor N) v' = T.looked q (knnVisitor N) v := by
    intro buf buf' v v' hlen hv hv'
    have hb : 0 < buf.length := by
      cases buf with
      | nil => simp [knnInit] at hv
      | cons => simp
    obtain ⟨init, i1, i2, i3, -⟩ := knnInit_inv N buf hb
    obtain ⟨init', j1, j2, j3, -⟩ := knnInit_inv N buf' (hlen ▸ hb)
    rw [hv] at i1
    rw [hv'] at j1
    cases i1
    cases j1
    have hll : init.length = init'.length := by omega
    obtain ⟨k1, k2⟩ := S (knnVisitor N) (knnVisitor N) (KnnSimilar c init init')
      (fun x y i hi hxy => knnSimilar_visit hinc hll i3 j3 hxy i (lb i hi) (lb' i hi))
      (fun x y i hi D hxy hle => knnSimilar_max hinc hll i3 j3 hxy (le_refl D) (hD i hi D hle).1 (hD i hi D hle).2)
      ⟨init, 0⟩ ⟨init', 0⟩ ⟨[], by simp, .nil, by simp, by simp⟩
    refine ⟨fun hsmall => ?_, k2⟩
    obtain ⟨L, l1, hsort, e1, e2⟩ := k1
    rw [e1] at hsmall
    rw [e1, e2]
    obtain ⟨x, hx, hxb⟩ := i3
    rcases lt_or_eq_of_le l1 with hlt | heq
    · exfalso
      have hlast : (init.drop L.length).getLast? = some x := by
        rw [List.getLast?_drop, if_neg (by omega), hx]
      have hmem : x ∈ L ++ init.drop L.length := List.mem_append_right _ (List.mem_of_getLast? hlast)
      exact absurd (hsmall x hmem) (by rw [hxb]; exact lt_irrefl _)
    · have d1 : init.drop L.length = [] := List.drop_eq_nil_of_le heq.ge
      have d2 : init'.drop L.length = [] := List.drop_eq_nil_of_le (by omega)
      simp only [d1, d2, List.append_nil]
  refine ⟨?_, ?_, ?_, ?_⟩
  · intro nn nn'
    obtain ⟨k1, k2⟩ := S nnVisitor nnVisitor (NnSimilar N c)
      (fun x y i hi hxy => nnSimilar_visit hinc hxy i (lb i hi) (lb' i hi))
      (fun x y i hi D hxy hle => nnSimilar_max hinc hxy (le_refl D) (hD i hi D hle).1 (hD i hi D hle).2)
      (nnInit N nn) (nnInit N nn') (Or.inl ⟨rfl, rfl⟩)
    have e3 : (T.scale s).num = N := h3
    unfold KdTree.searchNn
    rw [e3, h3]
    refine ⟨?_, k2⟩
    rcases k1 with ⟨k1, -⟩ | k1
    · obtain ⟨i, hi, hr, -⟩ := nn_of_nearly hN h3 hpu0 hpu1 hhi hd0 hn hbig nn
      unfold KdTree.searchNn at hr
      rw [h3] at hr
      rw [hr] at k1
      exact absurd (lb i hi) (by rw [show M.dist q (pts i) = N.big from k1]; exact lt_irrefl _)
    · exact k1
  · intro k prior prior' hk
    obtain ⟨out, rest, ho, -, -, hp, -⟩ := knn_of_nearly hN h3 h5 hpu0 hpu1 hhi hd0 hn hbig k hk prior
    refine ⟨out, ho, ?_⟩
    unfold KdTree.searchKnn KdTree.searchKnnRange at ho ⊢
    change (knnInit T.num (KdTree.resize (min k T.n) prior')).bind
      (fun v => .ok ((T.scale s).searchNearest (Pt.scale s q) (knnVisitor T.num) v).buf) = _
    rw [h3] at ho ⊢
    obtain ⟨init, i1, i2, i3, -⟩ := knnInit_inv N (KdTree.resize (min k T.n) prior) (by rw [resize_length]; omega)
    obtain ⟨init', j1, j2, j3, -⟩ := knnInit_inv N (KdTree.resize (min k T.n) prior') (by rw [resize_length]; omega)
    have hsim := (hknn _ _ _ _ (by rw [resize_length, resize_length]) i1 j1).1
    rw [i1] at ho
    rw [j1]
    simp only [Outcome.bind, Outcome.ok.injEq] at ho ⊢
    rw [ho] at hsim
    refine hsim ?_
    intro x hx
    have hmem := hp.subset (List.mem_append_left rest hx)
    rw [List.mem_map] at hmem
    obtain ⟨i, hi, rfl⟩ := hmem
    exact lb i (List.mem_range.1 hi)
  · intro buf buf' v v' hlen hv hv'
    have e3 : (T.scale s).num = N := h3
    rw [e3] at hv' ⊢
    rw [h3] at hv ⊢
    exact (hknn buf buf' v v' hlen hv hv').2
  · intro sorter r prior prior'
    exact S (radiusVisitor r) (radiusVisitor (c * r)) (fun x y => y = x.map (Neighbor.scale c))
      (fun x y i hi hxy => by
        subst hxy
        simp only [radiusVisitor, gt_iff_lt, hinc _ _]
        split_ifs
        · rw [List.map_append]; rfl
        · rfl)
      (fun x y i hi D hxy _ => (hinc.le _ _).symm) [] [] rfl

/-- Box searches give the very same lists. -/
theorem box_scale (hs : R.Scales s.1) (h1 : T.tag = euclideanTag R.F d) (mn mx : Pt R.F d) (idxs idxs' : List Nat) :
    (T.scale s).searchBox (Pt.scale s mn) (Pt.scale s mx) idxs' = T.searchBox mn mx idxs ∧
      (T.scale s).leafRanges = T.leafRanges := by
  refine ⟨?_, insertLeafRange_map _ _ _⟩
  have hle := hs.increasing.le
  unfold KdTree.searchBox KdTree.scale
  dsimp only [TreeData.map]
  rw [h1]
  have e : ∀ i, (euclideanTag R.F d).containsPt T.metric ⟨Pt.scale s mn, Pt.scale s mx⟩ (Pt.scale s (T.pts i)) =
      (euclideanTag R.F d).containsPt T.metric ⟨mn, mx⟩ (T.pts i) := by
    intro i
    simp only [euclideanTag, Box.containsPt, Pt.scale, hs.increasing _ _]
  simp only [e]
  rw [show KdTree.clearIdxs idxs' = KdTree.clearIdxs idxs from rfl]
  have key := searchBox_map (s * ·) (Branch1.mapped (s * ·)) (sd := (euclideanTag R.F d).splitDim)
    (sd' := (euclideanTag R.F d).splitDim) (lm := (euclideanTag R.F d).leftMax) (lm' := (euclideanTag R.F d).leftMax)
    (rm := (euclideanTag R.F d).rightMin) (rm' := (euclideanTag R.F d).rightMin)
    (cp := fun i => (euclideanTag R.F d).containsPt T.metric ⟨mn, mx⟩ (T.pts i))
    (cb := (euclideanTag R.F d).containsBox T.metric ⟨mn, mx⟩)
    (cb' := (euclideanTag R.F d).containsBox T.metric ⟨Pt.scale s mn, Pt.scale s mx⟩)
    (il := (euclideanTag R.F d).intersectsLeft ⟨mn, mx⟩)
    (il' := (euclideanTag R.F d).intersectsLeft ⟨Pt.scale s mn, Pt.scale s mx⟩)
    (ir := (euclideanTag R.F d).intersectsRight ⟨mn, mx⟩)
    (ir' := (euclideanTag R.F d).intersectsRight ⟨Pt.scale s mn, Pt.scale s mx⟩)
    (fun _ => rfl) (fun _ => rfl) (fun _ => rfl)
    (fun b => by simp only [euclideanTag, Box.containsBox, Box.containsPt, Box.map, Pt.scale, hs.increasing _ _])
    (fun b => by simp only [euclideanTag, Branch1.mapped, Pt.scale, hle])
    (fun b => by simp only [euclideanTag, Branch1.mapped, Pt.scale, ge_iff_le, hle])
    T.data.indices T.data.root T.data.rootBox (KdTree.clearIdxs idxs)
  rw [key]

/-- Median and sliding midpoint rule: a box is made of coordinates of the points. -/
theorem created_corner {C : BuildCfg R.F d (Branch1 R.F d)} (hN : C.N.low ≤ C.N.big) (hr : C.rule ≠ .midpoint)
    {depth : Int} {a : Nat} {seg : List Nat} {box : Box R.F d} {t : Tree (Branch1 R.F d)} {seg' : List Nat}
    {box' : Box R.F d} (h : Created C depth a seg box t seg' box') (hp : ∀ i ∈ seg, ∀ j, InRange C.N (C.pts i j))
    (hn : 0 < seg.length) (j : Fin d) :
    (∃ i ∈ seg, box'.max j = C.pts i j) ∧ ∃ i ∈ seg, box'.min j = C.pts i j := by
  have hb := h.built hN (fun h => absurd h hr) hp (fun h => absurd h hr)
  have hc := h.corners hr j
  obtain ⟨i, hi⟩ := List.exists_mem_of_length_pos hn
  have hm := hb.mem i (h.perm.symm.subset hi) j
  constructor
  · rcases hc.2 with e | ⟨k, hk, e⟩
    · exact ⟨i, hi, le_antisymm (by rw [e]; exact (hp i hi j).1) hm.2⟩
    · exact ⟨k, h.perm.subset hk, e⟩
  · rcases hc.1 with e | ⟨k, hk, e⟩
    · exact ⟨i, hi, le_antisymm hm.1 (by rw [e]; exact (hp i hi j).2)⟩
    · exact ⟨k, h.perm.subset hk, e⟩

/-- Median and sliding midpoint rule: the borders of the branches are coordinates of the points. -/
theorem created_borders {C : BuildCfg R.F d (Branch1 R.F d)} (hset : C.setBranch = setBranchEuclidean)
    (hN : C.N.low ≤ C.N.big) (hr : C.rule ≠ .midpoint) (hst : StopOk C) {depth : Int} {a : Nat} {seg : List Nat}
    {box : Box R.F d} {t : Tree (Branch1 R.F d)} {seg' : List Nat} {box' : Box R.F d}
    (h : Created C depth a seg box t seg' box') (hlt : ∀ i ∈ seg, i < n)
    (hp : ∀ i < n, ∀ j, InRange C.N (C.pts i j)) (hn : 0 < seg.length) :
    t.Every fun b => (∃ i < n, b.leftMax = C.pts i b.splitDim) ∧ ∃ i < n, b.rightMin = C.pts i b.splitDim := by
  induction h with
  | leaf _ => trivial
  | @branch depth o seg box sp l r segL segR boxL boxR hl hs hL hR ih1 ih2 =>
    have hmem := splitter_mem hs
    have hltL : ∀ i ∈ sp.seg.take sp.pos, i < n := fun i hi => hlt i (hmem.1 i hi)
    have hltR : ∀ i ∈ sp.seg.drop sp.pos, i < n := fun i hi => hlt i (hmem.2 i hi)
    have hpos := split_pos hr hs (two_le_of_not_leaf hst hl)
    have hnL : 0 < (sp.seg.take sp.pos).length := by rw [splitter_take_length hs]; exact hpos.1
    have hnR : 0 < (sp.seg.drop sp.pos).length := by rw [splitter_drop_length hs]; omega
    refine ⟨?_, ih1 hltL hnL, ih2 hltR hnR⟩
    rw [hset]
    obtain ⟨i, hi, e1⟩ := (created_corner hN hr hL (fun i hi => hp i (hltL i hi)) hnL sp.dim).1
    obtain ⟨k, hk, e2⟩ := (created_corner hN hr hR (fun i hi => hp i (hltR i hi)) hnR sp.dim).2
    exact ⟨⟨i, hltL i hi, e1⟩, k, hltR k hk, e2⟩

/-- C111 for the searches (partial) on a tree with all coordinates multiplied by `s`: the same answers and the same
reads, distances multiplied by `c`.  The metric multiplies by `c` what it sees of the coordinates: all numbers, or, if
the borders of the branches are coordinates of points, the differences to the query point. -/
theorem c111_search_partial (hu : R.Error u) (hu0 : 0 ≤ u) (hu1 : u ≤ 1) (hM : AxisMetric M) (hs : R.Scales s.1)
    (hc : R.Scales c.1) (h : KdTree.make (euclideanTag R.F d) M N pts n o fuel = .ok T) (hR : Representable N pts n o)
    (hn : 0 < n) (q : Pt R.F d)
    (hone : (∀ x, M.one (s * x) = c * M.one x) ∨ (o.rule ≠ .midpoint ∧
      ∀ i < n, ∀ j, M.one (s * (q j - pts i j)) = c * M.one (q j - pts i j)))
    (hbig : ∀ i < n, (1 + u) ^ (2 * Spec.height T.data.root) * (M.dist q (pts i)).1 < (1 - u) ^ d * N.big.1)
    (hbig' : ∀ i < n, (1 + u) ^ (2 * Spec.height T.data.root) * (c.1 * (M.dist q (pts i)).1) < (1 - u) ^ d * N.big.1) :
    SameSearch c T (T.scale s) q (Pt.scale s q) ∧ ∀ (mn mx : Pt R.F d) (idxs idxs' : List Nat),
      (T.scale s).searchBox (Pt.scale s mn) (Pt.scale s mx) idxs' = T.searchBox mn mx idxs ∧
        (T.scale s).leafRanges = T.leafRanges := by
  refine ⟨?_, box_scale hs (KdTree.make_ok h).1⟩
  refine sameSearch_scale hu hu0 hu1 hM hs hc h hR hn q ?_ ?_ hbig hbig'
  · rcases hone with hone | hone
    · exact fun i _ j => hone _
    · exact hone.2
  · rcases hone with hone | ⟨hr, hone⟩
    · exact Tree.every_of (fun b => scale_pick hs q b (hone _) (hone _)) _
    · obtain ⟨h1, h2, h3, h4, h5, hbt⟩ := KdTree.make_ok h
      obtain ⟨-, box, hcr⟩ := buildTree_created hbt
      have hall := created_borders (n := n) rfl hR.num hr (stopOk_of_created hcr (by simpa using hn)) hcr
        (fun i hi => List.mem_range.1 hi) hR.points (by simpa using hn)
      have hflip : ∀ i < n, ∀ j, M.one (s * (pts i j - q j)) = c * M.one (pts i j - q j) := by
        intro i hi j
        rw [hs.mul_sub, hM.symm, ← hs.mul_sub, hone i hi j, hM.symm]
      refine hall.mono ?_
      rintro b ⟨⟨i, hi, e1⟩, k, hk, e2⟩
      refine scale_pick hs q b ?_ ?_
      · rw [e1]; exact hflip i hi _
      · rw [e2]; exact hflip k hk _

end Search

/-! ### Powers of two -/

section PowersOfTwo

theorem roundBits_pow (p : Nat) (k : ℤ) (x : ℚ) : roundBits p (2 ^ k * x) = 2 ^ k * roundBits p x := by
  have up : ∀ (k : Nat) (x : ℚ), roundBits p (2 ^ k * x) = 2 ^ k * roundBits p x := by
    intro k
    induction k with
    | zero => intro x; simp
    | succ k ih =>
      intro x
      have e : (2 : ℚ) ^ (k + 1) * x = 2 ^ k * x + 2 ^ k * x := by ring
      rw [e, roundBits_double, ih]
      ring
  rcases Int.eq_nat_or_neg k with ⟨m, rfl | rfl⟩
  · rw [zpow_natCast]; exact up m x
  · have := up m (2 ^ (-(m : ℤ)) * x)
    have h2 : (2 : ℚ) ^ m * 2 ^ (-(m : ℤ)) = 1 := by
      rw [zpow_neg, zpow_natCast]
      exact mul_inv_cancel₀ (by positivity)
    rw [← mul_assoc, h2, one_mul] at this
    rw [this, ← mul_assoc, mul_comm (2 ^ (-(m : ℤ))) ((2 : ℚ) ^ m), h2, one_mul]

theorem binary_scales (p : Nat) (k : ℤ) : (binary p).Scales (2 ^ k) where
  pos := by positivity
  add x y _ _ := roundBits_pow p k _

theorem ieee_double {p : Nat} {e : ℤ} {z : ℚ} (h : ∃ m : ℤ, z = m * 2 ^ e) :
    roundTiny p e (2 * z) = 2 * roundTiny p e z := by
  have key : ∀ z : ℚ, 0 ≤ z → (∃ m : ℤ, z = m * 2 ^ e) → roundTiny p e (2 * z) = 2 * roundTiny p e z := by
    intro z hz h
    have he : (0 : ℚ) < 2 ^ e := by positivity
    rw [roundTiny_of_nonneg hz, roundTiny_of_nonneg (by linarith)]
    by_cases hbig : (2 : ℚ) ^ (e + p) ≤ z
    · have hz' : 0 < z := lt_of_lt_of_le (by positivity) hbig
      unfold roundTinyPos
      rw [if_pos hbig, if_pos (by linarith), two_mul, two_mul, roundPos_double hz']
    · obtain ⟨m, rfl⟩ := h
      have hm : 0 ≤ m := by
        have : (0 : ℚ) ≤ m := nonneg_of_mul_nonneg_left hz he
        exact_mod_cast this
      rw [tiny_exact_of_le hm (not_le.1 hbig).le]
      have hlt : (m : ℚ) < 2 ^ p := by
        rw [not_le, zpow_add₀ (by norm_num), mul_comm ((2 : ℚ) ^ e), zpow_natCast] at hbig
        exact lt_of_mul_lt_mul_right hbig he.le
      have hlt' : m < 2 ^ p := by exact_mod_cast hlt
      have e1 : 2 * ((m : ℚ) * 2 ^ e) = ((2 * m : ℤ) : ℚ) * 2 ^ e := by push_cast; ring
      rw [e1]
      exact tiny_exact (by omega) (by rw [pow_succ]; omega)
  rcases le_total 0 z with hz | hz
  · exact key z hz h
  · have := key (-z) (by linarith) (by
      obtain ⟨m, rfl⟩ := h
      exact ⟨-m, by push_cast; ring⟩)
    rw [mul_neg, roundTiny_neg, roundTiny_neg] at this
    linarith

theorem ieee_pow {p : Nat} {e : ℤ} (k : Nat) {z : ℚ} (h : ∃ m : ℤ, z = m * 2 ^ e) :
    roundTiny p e (2 ^ k * z) = 2 ^ k * roundTiny p e z := by
  induction k with
  | zero => simp
  | succ k ih =>
    obtain ⟨m, hm⟩ := h
    rw [pow_succ, mul_comm ((2 : ℚ) ^ k), mul_assoc, ieee_double ⟨2 ^ k * m, by rw [hm]; push_cast; ring⟩,
      ih, mul_assoc]

/-- With gradual underflow sums are multiples of the smallest number, so scaling up is harmless. -/
theorem ieee_scales (p : Nat) (e : ℤ) (k : Nat) : (ieee p e).Scales (2 ^ k) where
  pos := by positivity
  add x y hx hy := by
    obtain ⟨a, ha⟩ := roundTiny_multiple hx
    obtain ⟨b, hb⟩ := roundTiny_multiple hy
    exact ieee_pow k ⟨a + b, by rw [ha, hb]; push_cast; ring⟩

/-- Normal numbers are scaled exactly. -/
theorem ieee_normal {p : Nat} {e : ℤ} (k : Nat) {z : ℚ} (h : 2 ^ (e + p) ≤ z) :
    roundTiny p e (2 ^ k * z) = 2 ^ k * roundTiny p e z := by
  have hz : 0 < z := lt_of_lt_of_le (by positivity) h
  have hk : (1 : ℚ) ≤ 2 ^ k := one_le_pow₀ (by norm_num)
  have hz' : z ≤ 2 ^ k * z := le_mul_of_one_le_left hz.le hk
  rw [roundTiny_of_nonneg hz.le, roundTiny_of_nonneg (by linarith)]
  unfold roundTinyPos
  rw [if_pos h, if_pos (h.trans hz')]
  have := roundBits_pow p k z
  rw [zpow_natCast, roundBits_of_pos hz, roundBits_of_pos (by linarith)] at this
  exact this

end PowersOfTwo

section Whole
variable {K : Type} [Field K] [LinearOrder K] [IsStrictOrderedRing K] {R : Rounding K} {d : Nat} {s c B low big : R.F}
  {u : K} {M : Metric R.F d} {pts : Nat → Pt R.F d} {n : Nat} {o : BuildOpts R.F d} {fuel : Nat}
  {T : KdTree R.F d (Branch1 R.F d)}

/-- What happens to a tree and its searches when all coordinates are multiplied by `s`: the construction succeeds with
the multiplied tree, the searches read the same points in the same order and give the same answers with distances
multiplied by `c`, box searches and leaf ranges are equal. -/
def SameScaled (s c : R.F) (low big : R.F) (M : Metric R.F d) (pts : Nat → Pt R.F d) (n : Nat) (o : BuildOpts R.F d)
    (fuel : Nat) (T : KdTree R.F d (Branch1 R.F d)) (q : Pt R.F d) : Prop :=
  ∃ T', KdTree.make (euclideanTag R.F d) M (R.num low big) (fun i => Pt.scale s (pts i)) n (o.map (s * ·)) fuel =
      .ok T' ∧ T' = T.scale s ∧ SameSearch c T T' q (Pt.scale s q) ∧ ∀ (mn mx : Pt R.F d) (idxs idxs' : List Nat),
      T'.searchBox (Pt.scale s mn) (Pt.scale s mx) idxs' = T.searchBox mn mx idxs ∧ T'.leafRanges = T.leafRanges

theorem sameScaled (hu : R.Error u) (hu0 : 0 ≤ u) (hu1 : u ≤ 1) (hM : AxisMetric M) (hs : R.Scales s.1)
    (hc : R.Scales c.1) (hhalf : o.rule ≠ .median → ∀ x, R.rd x = x → R.rd (s.1 * (x / 2)) = s.1 * R.rd (x / 2))
    (room : ScaleRoom (R.num low big) s B) (hp : ∀ i j, UpTo B (pts i j)) (hb : BoundsUpToB B o.bounds) (hn : 0 < n)
    (h : KdTree.make (euclideanTag R.F d) M (R.num low big) pts n o fuel = .ok T) (q : Pt R.F d)
    (hone : (∀ x, M.one (s * x) = c * M.one x) ∨ (o.rule ≠ .midpoint ∧
      ∀ i < n, ∀ j, M.one (s * (q j - pts i j)) = c * M.one (q j - pts i j)))
    (hbig : ∀ i < n, (1 + u) ^ (2 * Spec.height T.data.root) * (M.dist q (pts i)).1 < (1 - u) ^ d * big.1)
    (hbig' : ∀ i < n, (1 + u) ^ (2 * Spec.height T.data.root) * (c.1 * (M.dist q (pts i)).1) < (1 - u) ^ d * big.1) :
    SameScaled s c low big M pts n o fuel T q := by
  have e := c111_tree_partial (M := M) (fuel := fuel) hs hhalf room hp hb hn
  rw [h] at e
  obtain ⟨k1, k2⟩ := c111_search_partial hu hu0 hu1 hM hs hc h (scale_box room hp hb hn).2 hn q hone hbig hbig'
  exact ⟨_, e, rfl, k1, k2⟩

theorem _root_.Pico.Rounding.Scales.l1 (hs : R.Scales s.1) (x : R.F) : (metricL1 R.F d).one (s * x) = s * (metricL1 R.F d).one x :=
  hs.abs x

theorem _root_.Pico.Rounding.Scales.val_sq (hs : R.Scales s.1) : (s * s).1 = s.1 * s.1 := hs.val s

theorem _root_.Pico.Rounding.Scales.sq (hs : R.Scales s.1) : R.Scales (s * s).1 where
  pos := by rw [hs.val]; exact mul_pos hs.pos hs.pos
  add x y hx hy := by
    rw [hs.val, mul_assoc, mul_assoc, ← hs.add x y hx hy]
    have := hs.add (s.1 * x) (s.1 * y) (hs.scalar hx) (hs.scalar hy)
    rwa [← mul_add] at this

theorem l2_one_scale (hs : R.Scales s.1) {x : R.F} (hx : R.rd (s.1 * s.1 * (x.1 * x.1)) = s.1 * s.1 * R.rd (x.1 * x.1)) :
    (metricL2Sq R.F d).one (s * x) = (s * s) * (metricL2Sq R.F d).one x := by
  apply Subtype.ext
  simp only [metricL2Sq, squared]
  have e1 : (s * x * (s * x)).1 = R.rd ((s * x).1 * (s * x).1) := rfl
  have e2 : (x * x).1 = R.rd (x.1 * x.1) := rfl
  rw [hs.sq.val, hs.val_sq, e1, hs.val, e2, ← hx]
  congr 1
  ring

end Whole

section Binary
variable {p d n fuel : Nat} {s B low big : (binary p).F} {k : ℤ} {pts : Nat → Pt (binary p).F d}
  {o : BuildOpts (binary p).F d} {T : KdTree (binary p).F d (Branch1 (binary p).F d)}

theorem binary_scales' (hs : s.1 = 2 ^ k) : (binary p).Scales s.1 := hs ▸ binary_scales p k

/-- C111 for `metric_l1` (partial) in floating point arithmetic without underflow: multiplication of all coordinates by a
power of two, up or down, changes no answer and no read, and multiplies the distances exactly. All rules. -/
theorem c111_l1_partial (hs : s.1 = 2 ^ k) (room : ScaleRoom ((binary p).num low big) s B)
    (hp : ∀ i j, UpTo B (pts i j)) (hb : BoundsUpToB B o.bounds) (hn : 0 < n)
    (h : KdTree.make (euclideanTag _ d) (metricL1 _ d) ((binary p).num low big) pts n o fuel = .ok T)
    (q : Pt (binary p).F d)
    (hbig : ∀ i < n, (1 + 1 / 2 ^ (p + 1)) ^ (2 * Spec.height T.data.root) * ((metricL1 _ d).dist q (pts i)).1 <
      (1 - 1 / 2 ^ (p + 1)) ^ d * big.1)
    (hbig' : ∀ i < n, (1 + 1 / 2 ^ (p + 1)) ^ (2 * Spec.height T.data.root) *
      (2 ^ k * ((metricL1 _ d).dist q (pts i)).1) < (1 - 1 / 2 ^ (p + 1)) ^ d * big.1) :
    SameScaled s s low big (metricL1 _ d) pts n o fuel T q := by
  have hS := binary_scales' hs
  refine sameScaled (binary_relative p) (by positivity) ?_ (axis_l1 (binary p).laws) hS hS ?_ room hp hb hn h q
    (.inl hS.l1) hbig (by rw [hs]; exact hbig')
  · rw [div_le_one (by positivity)]; exact one_le_pow₀ (by norm_num)
  · intro _ x _
    rw [hs]
    exact roundBits_pow p k _

/-- C111 for `metric_l2_squared` (partial) in floating point arithmetic without underflow. All rules; squared distances
are multiplied by the square of the power of two. -/
theorem c111_l2_partial (hs : s.1 = 2 ^ k) (room : ScaleRoom ((binary p).num low big) s B)
    (hp : ∀ i j, UpTo B (pts i j)) (hb : BoundsUpToB B o.bounds) (hn : 0 < n)
    (h : KdTree.make (euclideanTag _ d) (metricL2Sq _ d) ((binary p).num low big) pts n o fuel = .ok T)
    (q : Pt (binary p).F d)
    (hbig : ∀ i < n, (1 + 1 / 2 ^ (p + 1)) ^ (2 * Spec.height T.data.root) * ((metricL2Sq _ d).dist q (pts i)).1 <
      (1 - 1 / 2 ^ (p + 1)) ^ d * big.1)
    (hbig' : ∀ i < n, (1 + 1 / 2 ^ (p + 1)) ^ (2 * Spec.height T.data.root) *
      (2 ^ (2 * k) * ((metricL2Sq _ d).dist q (pts i)).1) < (1 - 1 / 2 ^ (p + 1)) ^ d * big.1) :
    SameScaled s (s * s) low big (metricL2Sq _ d) pts n o fuel T q := by
  have hS := binary_scales' hs
  have hss : (s * s).1 = 2 ^ (2 * k) := by
    rw [hS.val, hs, ← zpow_add₀ (by norm_num), two_mul]
  refine sameScaled (binary_relative p) (by positivity) ?_ (axis_l2Sq (binary p).laws (binary p).squareLaws) hS hS.sq ?_
    room hp hb hn h q (.inl fun x => l2_one_scale hS ?_) hbig (by rw [hss]; exact hbig')
  · rw [div_le_one (by positivity)]; exact one_le_pow₀ (by norm_num)
  · intro _ x _
    rw [hs]
    exact roundBits_pow p k _
  · rw [hs, ← zpow_add₀ (by norm_num)]
    exact roundBits_pow p _ _

end Binary

section Ieee
variable {p d n fuel : Nat} {e : ℤ} {s B low big : (ieee p e).F} {k : Nat} {pts : Nat → Pt (ieee p e).F d}
  {o : BuildOpts (ieee p e).F d} {T : KdTree (ieee p e).F d (Branch1 (ieee p e).F d)}

/-- C111 for `metric_l1` (partial) with gradual underflow (`float`, `double`), scaling up, median rule: sums are exact
down there, so nothing more is needed. -/
theorem c111_float_l1_partial (hs : s.1 = 2 ^ k) (hr : o.rule = .median) (room : ScaleRoom ((ieee p e).num low big) s B)
    (hp : ∀ i j, UpTo B (pts i j)) (hb : BoundsUpToB B o.bounds) (hn : 0 < n)
    (h : KdTree.make (euclideanTag _ d) (metricL1 _ d) ((ieee p e).num low big) pts n o fuel = .ok T)
    (q : Pt (ieee p e).F d)
    (hbig : ∀ i < n, (1 + 1 / 2 ^ (p + 1)) ^ (2 * Spec.height T.data.root) * ((metricL1 _ d).dist q (pts i)).1 <
      (1 - 1 / 2 ^ (p + 1)) ^ d * big.1)
    (hbig' : ∀ i < n, (1 + 1 / 2 ^ (p + 1)) ^ (2 * Spec.height T.data.root) *
      (2 ^ k * ((metricL1 _ d).dist q (pts i)).1) < (1 - 1 / 2 ^ (p + 1)) ^ d * big.1) :
    SameScaled s s low big (metricL1 _ d) pts n o fuel T q := by
  have hS : (ieee p e).Scales s.1 := hs ▸ ieee_scales p e k
  refine sameScaled (ieee_relative p e) (by positivity) ?_ (axis_l1 (ieee p e).laws) hS hS (fun h => absurd hr h) room
    hp hb hn h q (.inl hS.l1) hbig (by rw [hs]; exact hbig')
  rw [div_le_one (by positivity)]; exact one_le_pow₀ (by norm_num)

/-- C111 for `metric_l2_squared` (partial) with gradual underflow (`float`, `double`), scaling up, median rule: a
coordinate of the query point equals the one of a point, or the square of the difference is a normal number. Without
that the statement is false, see `c111_false`. -/
theorem c111_float_l2_partial (hs : s.1 = 2 ^ k) (hr : o.rule = .median) (room : ScaleRoom ((ieee p e).num low big) s B)
    (hp : ∀ i j, UpTo B (pts i j)) (hb : BoundsUpToB B o.bounds) (hn : 0 < n)
    (h : KdTree.make (euclideanTag _ d) (metricL2Sq _ d) ((ieee p e).num low big) pts n o fuel = .ok T)
    (q : Pt (ieee p e).F d) (hq : ∀ i < n, ∀ j, q j = pts i j ∨ 2 ^ (e + p) ≤ (q j - pts i j).1 * (q j - pts i j).1)
    (hbig : ∀ i < n, (1 + 1 / 2 ^ (p + 1)) ^ (2 * Spec.height T.data.root) * ((metricL2Sq _ d).dist q (pts i)).1 <
      (1 - 1 / 2 ^ (p + 1)) ^ d * big.1)
    (hbig' : ∀ i < n, (1 + 1 / 2 ^ (p + 1)) ^ (2 * Spec.height T.data.root) *
      (2 ^ (2 * k) * ((metricL2Sq _ d).dist q (pts i)).1) < (1 - 1 / 2 ^ (p + 1)) ^ d * big.1) :
    SameScaled s (s * s) low big (metricL2Sq _ d) pts n o fuel T q := by
  have hS : (ieee p e).Scales s.1 := hs ▸ ieee_scales p e k
  have hss : (s * s).1 = 2 ^ (2 * k) := by rw [hS.val, hs, ← pow_add, two_mul]
  refine sameScaled (ieee_relative p e) (by positivity) ?_ (axis_l2Sq (ieee p e).laws (ieee p e).squareLaws) hS hS.sq
    (fun h => absurd hr h) room hp hb hn h q (.inr ⟨by rw [hr]; decide, ?_⟩) hbig
    (by rw [hss]; exact hbig')
  · rw [div_le_one (by positivity)]; exact one_le_pow₀ (by norm_num)
  · intro i hi j
    refine l2_one_scale hS ?_
    rcases hq i hi j with h0 | h0
    · rw [h0, (ieee p e).laws.sub_self, Rounding.val_zero]
      simp [(ieee p e).rd_zero]
    · rw [hs, ← pow_add]
      exact ieee_normal _ h0

end Ieee

/-- `2^-80`. -/
def tinyScale : F32 := (ieee 23 (-149)).ofK (1 / 2 ^ 80)

/-- Two points on the line, the second one closer to zero. -/
def threeOne : Nat → Pt F32 1
  | 0 => ![f32 3]
  | _ => ![f32 1]

/-- C111 is false with gradual underflow and `metric_l2_squared`: of the points 3 and 1 the second is the nearest
neighbor of 0. After multiplication by `2^-80` (exact for all coordinates) both squared distances are rounded to zero and
the first point is returned. -/
theorem c111_false : ∃ T T', KdTree.make (euclideanTag F32 1) (metricL2Sq F32 1) f32Num threeOne 2
      (Ref.optsMedian F32 1) 3 = .ok T ∧
    KdTree.make (euclideanTag F32 1) (metricL2Sq F32 1) f32Num (fun i => Pt.scale tinyScale (threeOne i)) 2
      (Ref.optsMedian F32 1) 3 = .ok T' ∧
    (∀ i, (Pt.scale tinyScale (threeOne i) 0).1 = 1 / 2 ^ 80 * (threeOne i 0).1) ∧
    (T.searchNn ![0] ⟨0, 0⟩).index = 1 ∧ (T'.searchNn ![0] ⟨0, 0⟩).index = 0 := by
  obtain ⟨T, h1, h2⟩ := Outcome.exists_of_check (x := KdTree.make (euclideanTag F32 1) (metricL2Sq F32 1) f32Num
    threeOne 2 (Ref.optsMedian F32 1) 3) (p := fun T => decide ((T.searchNn ![0] ⟨0, 0⟩).index = 1)) (by decide +kernel)
  obtain ⟨T', h3, h4⟩ := Outcome.exists_of_check (x := KdTree.make (euclideanTag F32 1) (metricL2Sq F32 1) f32Num
    (fun i => Pt.scale tinyScale (threeOne i)) 2 (Ref.optsMedian F32 1) 3)
    (p := fun T => decide ((T.searchNn ![0] ⟨0, 0⟩).index = 0)) (by decide +kernel)
  refine ⟨T, T', h1, h3, ?_, of_decide_eq_true h2, of_decide_eq_true h4⟩
  intro i
  match i with
  | 0 => decide +kernel
  | n + 1 => change (tinyScale * f32 1).1 = 1 / 2 ^ 80 * (f32 1).1; decide +kernel

/-- Two points at zero and one at the smallest positive number. -/
def tiny3 : Nat → Pt F32 1
  | 2 => ![(ieee 23 (-149)).ofK (1 / 2 ^ 149)]
  | _ => ![0]

/-- C111 is false for the construction with the sliding midpoint rule and gradual underflow: half of the smallest number
is rounded to zero. The leaves of the doubled points are others. -/
theorem c111_tree_false : ∃ T T', KdTree.make (euclideanTag F32 1) (metricL1 F32 1) f32Num tiny3 3
      ⟨Ref.std, .sliding, .maxLeafSize 2, .fromSpace, 32⟩ 5 = .ok T ∧
    KdTree.make (euclideanTag F32 1) (metricL1 F32 1) f32Num (fun i => Pt.scale (f32 2) (tiny3 i)) 3
      ⟨Ref.std, .sliding, .maxLeafSize 2, .fromSpace, 32⟩ 5 = .ok T' ∧
    T.leafRanges = .ok [(0, 1), (1, 3)] ∧ T'.leafRanges = .ok [(0, 2), (2, 3)] := by
  obtain ⟨T, h1, h2⟩ := Outcome.exists_of_check (x := KdTree.make (euclideanTag F32 1) (metricL1 F32 1) f32Num tiny3 3
      ⟨Ref.std, .sliding, .maxLeafSize 2, .fromSpace, 32⟩ 5)
    (p := fun T => decide (T.leafRanges = .ok [(0, 1), (1, 3)])) (by decide +kernel)
  obtain ⟨T', h3, h4⟩ := Outcome.exists_of_check (x := KdTree.make (euclideanTag F32 1) (metricL1 F32 1) f32Num
      (fun i => Pt.scale (f32 2) (tiny3 i)) 3 ⟨Ref.std, .sliding, .maxLeafSize 2, .fromSpace, 32⟩ 5)
    (p := fun T => decide (T.leafRanges = .ok [(0, 2), (2, 3)])) (by decide +kernel)
  exact ⟨T, T', h1, h3, of_decide_eq_true h2, of_decide_eq_true h4⟩

theorem nearCircle_upTo (i : Nat) (j : Fin 2) : UpTo (R := ieee 23 (-149)) (f32 (2 ^ 28)) (nearCircle i j) := by
  have h : ∀ i < 5, ∀ j, -(f32 (2 ^ 28)) ≤ nearCircle i j ∧ nearCircle i j ≤ f32 (2 ^ 28) := by decide +kernel
  by_cases hi : i < 5
  · exact h i hi j
  · have e : nearCircle i = nearCircle 4 := by
      match i, hi with
      | 0, hi => exact absurd (by decide) hi
      | 1, hi => exact absurd (by decide) hi
      | 2, hi => exact absurd (by decide) hi
      | 3, hi => exact absurd (by decide) hi
      | _ + 4, _ => rfl
    rw [e]
    exact h 4 (by decide) j

/-- The hypotheses of `c111_float_l2_partial` hold for five points in the plane multiplied by 1024. -/
example : ∃ T, KdTree.make (euclideanTag F32 2) (metricL2Sq F32 2) f32Num nearCircle 5 (Ref.optsMedian F32 2) 10 = .ok T ∧
    SameScaled (R := ieee 23 (-149)) (f32 1024) (f32 1024 * f32 1024) f32Num.low f32Num.big (metricL2Sq F32 2) nearCircle 5
      (Ref.optsMedian F32 2) 10 T ![0, 0] := by
  obtain ⟨T, h1, h2⟩ := Outcome.exists_of_check (x := KdTree.make (euclideanTag F32 2) (metricL2Sq F32 2)
    f32Num nearCircle 5 (Ref.optsMedian F32 2) 10)
    (p := fun T => decide (Spec.height T.data.root = 2)) (by decide +kernel)
  have h2 := of_decide_eq_true h2
  refine ⟨T, h1, c111_float_l2_partial (p := 23) (e := -149) (k := 10) (B := f32 (2 ^ 28)) (by decide +kernel) rfl
    ⟨by decide +kernel, by decide +kernel, by decide +kernel, by decide +kernel, by decide +kernel⟩ nearCircle_upTo
    (o := Ref.optsMedian F32 2) trivial (by decide) h1 _ (by decide +kernel) ?_ ?_⟩
  · rw [h2]; decide +kernel
  · rw [h2]; decide +kernel

/-- Three points on the line, without underflow. -/
def line3Binary : Nat → Pt (binary 23).F 1
  | 0 => ![(binary 23).ofK (1 / 3)]
  | 1 => ![(binary 23).ofK (5 / 7)]
  | _ => ![(binary 23).ofK (-3)]

/-- The hypotheses of `c111_l1_partial` hold for three points on the line divided by 8, sliding midpoint rule. -/
example : ∃ T, KdTree.make (euclideanTag (binary 23).F 1) (metricL1 (binary 23).F 1)
      ((binary 23).num ((binary 23).ofK (-1000)) ((binary 23).ofK 1000)) line3Binary 3 (Ref.optsSliding (binary 23).F 1) 10 =
      .ok T ∧
    SameScaled ((binary 23).ofK (1 / 8)) ((binary 23).ofK (1 / 8)) ((binary 23).ofK (-1000)) ((binary 23).ofK 1000)
      (metricL1 (binary 23).F 1) line3Binary 3 (Ref.optsSliding (binary 23).F 1) 10 T ![(binary 23).ofK (1 / 2)] := by
  obtain ⟨T, h1, h2⟩ := Outcome.exists_of_check (x := KdTree.make (euclideanTag (binary 23).F 1)
      (metricL1 (binary 23).F 1) ((binary 23).num ((binary 23).ofK (-1000)) ((binary 23).ofK 1000)) line3Binary 3
      (Ref.optsSliding (binary 23).F 1) 10)
    (p := fun T => decide (Spec.height T.data.root = 2)) (by decide +kernel)
  have h2 := of_decide_eq_true h2
  refine ⟨T, h1, c111_l1_partial (k := -3) (B := (binary 23).ofK 4) (by decide +kernel)
    ⟨by decide +kernel, by decide +kernel, by decide +kernel, by decide +kernel, by decide +kernel⟩ ?_
    (o := Ref.optsSliding (binary 23).F 1) trivial (by decide) h1 _ ?_ ?_⟩
  · intro i j
    have h : ∀ i < 3, ∀ j, -((binary 23).ofK 4) ≤ line3Binary i j ∧ line3Binary i j ≤ (binary 23).ofK 4 := by
      decide +kernel
    match i with
    | 0 => exact h 0 (by decide) j
    | 1 => exact h 1 (by decide) j
    | _ + 2 => exact h 2 (by decide) j
  · rw [h2]; decide +kernel
  · rw [h2]; decide +kernel

end Props

end Pico
