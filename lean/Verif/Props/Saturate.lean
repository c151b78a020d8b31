import Verif.Proof.Saturate
import Verif.Props.Rounding
import Verif.Props.Stream
import Verif.Props.Nan

/-!
# C84: overflow during a search

`Φ.toRounding.F` are floating point numbers without a largest one, `Fl Φ` the real ones, `sat` turns a number
of the first kind into one of the second (an infinity if it is too large).
-/

set_option linter.unusedSectionVars false

namespace Pico.Props

open Pico Spec

section
variable {K : Type} [Field K] [LinearOrder K] [IsStrictOrderedRing K] {Φ : FloatFormat K} {d : Nat}

/-- A neighbor with its distance mapped. -/
def satN (Φ : FloatFormat K) (x : Neighbor Φ.toRounding.F) : Neighbor (Fl Φ) := ⟨x.index, sat Φ x.distance⟩

theorem satVisitor_nn : SatVisitor (nnVisitor : Visitor Φ.toRounding.F _) nnVisitor (satN Φ)
    (fun s => IsFin s.distance) where
  max_fin s h := h
  max s _ := rfl
  visit s i x h _ := by
    simp only [nnVisitor, satN, gt_iff_lt, sat_lt_fin h]
    split_ifs <;> rfl
  inv s i x h h0 := by
    simp only [nnVisitor, gt_iff_lt]
    split_ifs with hc
    · have h0' : (0 : K) ≤ x.1 := h0
      have hc' : x.1 < s.distance.1 := hc
      have := Φ.big_pos
      exact ⟨by linarith, hc'.le.trans h.2⟩
    · exact h
  ignore s i x _ h := if_neg (not_lt.2 h)

theorem satVisitor_radius {r : Φ.toRounding.F} (hr : IsFin r) :
    SatVisitor (radiusVisitor r) (radiusVisitor (sat Φ r)) (List.map (satN Φ)) (fun _ => True) where
  max_fin s _ := hr
  max s _ := rfl
  visit s i x _ _ := by
    simp only [radiusVisitor, gt_iff_lt, sat_lt_fin hr]
    split_ifs
    · rw [List.map_append]; rfl
    · rfl
  inv _ _ _ _ _ := trivial
  ignore s i x _ h := if_neg (not_lt.2 h)

theorem insertLoop_mem {α : Type} [LT α] [DecidableLT α] (item : Neighbor α) (e : Nat) (buf : List (Neighbor α))
    (x : Neighbor α) (hx : x ∈ insertLoop item buf e) : x = item ∨ x ∈ buf := by
  induction e generalizing buf with
  | zero => exact (List.mem_or_eq_of_mem_set hx).symm
  | succ e ih =>
    unfold insertLoop at hx
    cases hg : buf[e]? with
    | none => rw [hg] at hx; exact .inr hx
    | some y =>
      rw [hg] at hx
      dsimp only at hx
      split_ifs at hx
      · rcases ih _ hx with h | h
        · exact .inl h
        · rcases List.mem_or_eq_of_mem_set h with h | rfl
          · exact .inr h
          · exact .inr (List.mem_of_getElem? hg)
      · exact (List.mem_or_eq_of_mem_set hx).symm

theorem insertLoop_sat {item : Neighbor Φ.toRounding.F} (hi : IsFin item.distance) (e : Nat)
    (buf : List (Neighbor Φ.toRounding.F)) :
    insertLoop (satN Φ item) (buf.map (satN Φ)) e = (insertLoop item buf e).map (satN Φ) := by
  induction e generalizing buf with
  | zero => simp [insertLoop, List.map_set]
  | succ e ih =>
    unfold insertLoop
    rw [List.getElem?_map]
    cases hg : buf[e]? with
    | none => rfl
    | some y =>
      simp only [Option.map_some]
      have : Neighbor.lt (satN Φ item) (satN Φ y) = Neighbor.lt item y := by
        simp only [Neighbor.lt, satN, fin_lt_sat hi]
      rw [this]
      split_ifs
      · rw [← List.map_set]; exact ih _
      · rw [← List.map_set]

/-- The state of `search_knn` mapped. -/
def satK (Φ : FloatFormat K) (s : KnnState Φ.toRounding.F) : KnnState (Fl Φ) := ⟨s.buf.map (satN Φ), s.active⟩

theorem knnMax_sat (s : KnnState Φ.toRounding.F) : knnMax (Fl.num Φ) (satK Φ s) = sat Φ (knnMax (satNum Φ) s) := by
  unfold knnMax satK
  rw [List.getLast?_map]
  cases s.buf.getLast? with
  | none => exact sat_big.symm
  | some x => rfl

theorem satVisitor_knn : SatVisitor (knnVisitor (satNum Φ)) (knnVisitor (Fl.num Φ)) (satK Φ)
    (fun s => ∀ x ∈ s.buf, IsFin x.distance) := by
  have hfin : ∀ s : KnnState Φ.toRounding.F, (∀ x ∈ s.buf, IsFin x.distance) → IsFin (knnMax (satNum Φ) s) := by
    intro s h
    unfold knnMax
    cases hg : s.buf.getLast? with
    | none => exact isFin_big
    | some x => exact h x (List.mem_of_getLast? hg)
  have hacc : ∀ (s : KnnState Φ.toRounding.F) (x : Φ.toRounding.F), (∀ x ∈ s.buf, IsFin x.distance) → 0 ≤ x →
      knnMax (satNum Φ) s > x → IsFin x := by
    intro s x h h0 hc
    have h0' : (0 : K) ≤ x.1 := h0
    have hc' : x.1 < (knnMax (satNum Φ) s).1 := hc
    have := Φ.big_pos
    exact ⟨by linarith, hc'.le.trans (hfin s h).2⟩
  refine ⟨hfin, fun s _ => knnMax_sat s, ?_, ?_, ?_⟩
  · intro s i x h h0
    simp only [knnVisitor, knnVisit, knnMax_sat, gt_iff_lt, sat_lt_fin (hfin s h)]
    by_cases hc : x < knnMax (satNum Φ) s
    · rw [if_pos hc, if_pos hc]
      have hl : (satK Φ s).buf.length = s.buf.length := List.length_map _
      rw [hl]
      simp only [satK, insertSorted]
      rw [← insertLoop_sat (item := ⟨i, x⟩) (hacc s x h h0 hc)]
      rfl
    · rw [if_neg hc, if_neg hc]
  · intro s i x h h0
    simp only [knnVisitor, knnVisit]
    by_cases hc : knnMax (satNum Φ) s > x
    · rw [if_pos hc]
      intro y hy
      rcases insertLoop_mem _ _ _ _ hy with rfl | hy
      · exact hacc s x h h0 hc
      · exact h y hy
    · rw [if_neg hc]
      exact h
  · exact fun s i x _ h => if_neg (not_lt.2 h)

variable {M : Metric Φ.toRounding.F d} {M' : Metric (Fl Φ) d} {pts : Nat → Pt Φ.toRounding.F d} {n : Nat}
  {o : BuildOpts Φ.toRounding.F d} {fuel : Nat} {B : Φ.toRounding.F}

/-- A tree with its coordinates mapped. -/
def satTree (M' : Metric (Fl Φ) d) (T : KdTree Φ.toRounding.F d (Branch1 Φ.toRounding.F d)) :
    KdTree (Fl Φ) d (Branch1 (Fl Φ) d) :=
  ⟨euclideanTag (Fl Φ) d, M', Fl.num Φ, fun i j => sat Φ (T.pts i j), T.n, T.data.map (sat Φ) (satBranch Φ)⟩

theorem small_box (hB : 2 * B.1 ≤ Φ.big) (hp : ∀ i j, IsSmall B.1 (pts i j))
    (hb : ∀ mn mx, o.bounds = .given mn mx → ∀ j, IsSmall B.1 (mn j) ∧ IsSmall B.1 (mx j)) (hn : 0 < n) :
    (boxFromBounds (satNum Φ) pts n o.bounds).Within (-B) B ∧ Representable (satNum Φ) pts n o := by
  have hbig := Φ.big_pos
  have hN : (satNum Φ).low ≤ (satNum Φ).big := by
    show -Φ.big ≤ Φ.big
    linarith
  have hin : ∀ x : Φ.toRounding.F, IsSmall B.1 x → InRange (satNum Φ) x := fun x hx => hx.fin hB
  have hR : Representable (satNum Φ) pts n o := by
    refine ⟨hN, fun i _ j => hin _ (hp i j), ?_, fun _ => Φ.toRounding.midOk _ _⟩
    cases hbd : o.bounds with
    | fromSpace => trivial
    | given mn mx => exact fun j => ⟨hin _ (hb mn mx hbd j).1, hin _ (hb mn mx hbd j).2⟩
  have hc := boxFromBounds_cellOk hn hR.points hR.bounds
  refine ⟨fun j => ⟨?_, (hc j).1, ?_⟩, hR⟩
  · have h0 : -B ≤ (satNum Φ).big := le_trans (show -B ≤ pts 0 j from (hp 0 j).1) (hin _ (hp 0 j)).2
    cases hbd : o.bounds with
    | fromSpace => exact (foldl_fitPt_min pts _ _ j _).2 ⟨h0, fun i _ => (hp i j).1⟩
    | given mn mx =>
      rw [boxFromBounds_given_min]
      exact le_min (le_min h0 (hb mn mx hbd j).1.1) (hb mn mx hbd j).2.1
  · have h0 : (satNum Φ).low ≤ B := le_trans (hin _ (hp 0 j)).1 (show pts 0 j ≤ B from (hp 0 j).2)
    cases hbd : o.bounds with
    | fromSpace => exact (foldl_fitPt_max pts _ _ j _).2 ⟨h0, fun i _ => (hp i j).2⟩
    | given mn mx =>
      rw [boxFromBounds_given_max]
      exact max_le (max_le h0 (hb mn mx hbd j).1.2) (hb mn mx hbd j).2.2

/-- The construction with overflow is the image of the one without. -/
theorem sat_make (hB : 2 * B.1 ≤ Φ.big) (hp : ∀ i j, IsSmall B.1 (pts i j))
    (hb : ∀ mn mx, o.bounds = .given mn mx → ∀ j, IsSmall B.1 (mn j) ∧ IsSmall B.1 (mx j)) (hn : 0 < n) :
    KdTree.make (euclideanTag (Fl Φ) d) M' (Fl.num Φ) (fun i j => sat Φ (pts i j)) n (o.map (sat Φ)) fuel =
      (KdTree.make (euclideanTag Φ.toRounding.F d) M (satNum Φ) pts n o fuel).map (satTree M') := by
  have hw := (small_box hB hp hb hn).1
  rw [(sat_embeds o.rule hB).make (tag := euclideanTag Φ.toRounding.F d) (M := M) rfl (satBranch Φ)
    (fun _ _ _ => rfl) hp hb
    (fun j => ⟨⟨(hw j).1, (hw j).2.1.trans (hw j).2.2⟩, ⟨(hw j).1.trans (hw j).2.1, (hw j).2.2⟩⟩) fuel]
  cases hm : KdTree.make (euclideanTag Φ.toRounding.F d) M (satNum Φ) pts n o fuel with
  | ub => rfl
  | oof => rfl
  | ok T =>
    obtain ⟨-, -, -, rfl, rfl⟩ := make_fields hm
    rfl

/-- The searches with overflow are the images of the ones without. -/
theorem sat_search (hM : SatMetric M M') (hB0 : 0 ≤ B) (hB : 2 * B.1 ≤ Φ.big) (hp : ∀ i j, IsSmall B.1 (pts i j))
    (hb : ∀ mn mx, o.bounds = .given mn mx → ∀ j, IsSmall B.1 (mn j) ∧ IsSmall B.1 (mx j)) (hn : 0 < n)
    (hs : ∀ m, o.stop = .maxLeafSize m → 1 ≤ m ∧ m < 2 ^ (o.indexBits - 1))
    {T : KdTree Φ.toRounding.F d (Branch1 Φ.toRounding.F d)}
    (h : KdTree.make (euclideanTag Φ.toRounding.F d) M (satNum Φ) pts n o fuel = .ok T)
    {q : Pt Φ.toRounding.F d} (hq : ∀ j, IsFin (q j)) {σ σ' : Type} {V : Visitor Φ.toRounding.F σ}
    {V' : Visitor (Fl Φ) σ'} {g : σ → σ'} {Inv : σ → Prop} (hV : SatVisitor V V' g Inv) {s : σ} (hI : Inv s) :
    (satTree M' T).searchNearest (fun j => sat Φ (q j)) V' (g s) = g (T.searchNearest q V s) := by
  obtain ⟨hw, hR⟩ := small_box hB hp hb hn
  obtain ⟨h1, h2, h3, h4, h5, hbt⟩ := KdTree.make_ok h
  obtain ⟨_, box, hcr⟩ := buildTree_created hbt
  have hB0' : (0 : K) ≤ B.1 := hB0
  have hT := hcr.tight (C := KdTree.cfg (euclideanTag Φ.toRounding.F d) (satNum Φ) pts o) (lo := -B) (hi := B)
    (fun _ => Φ.toRounding.midOk _ _) (stopOk_of hs)
    (show -Φ.big ≤ -B.1 by linarith) (show B.1 ≤ Φ.big by linarith) (show -B.1 ≤ B.1 by linarith)
    (fun i _ j => hp i j) (fun _ => hw) (fun _ => by simpa using hn)
  unfold KdTree.searchNearest searchNearestRoot
  rw [h1, h2, h4]
  have key := (sat_searchNearest hV hM hB (le_refl (-B.1)) (le_refl B.1) hq
    (dist' := fun i => M'.dist (fun j => sat Φ (q j)) (fun j => sat Φ (pts i j)))
    (fun i => hM.dist q (pts i) hq fun j => (hp i j).fin hB) hT [] [] rfl 0 (fun _ => 0) s hI le_rfl isFin_zero
    (fun _ => ⟨le_rfl, isFin_zero⟩) (fun j x _ _ => hM.axis.nonneg _)).1
  simp only [List.nil_append, List.append_nil] at key
  have e0 : (fun j : Fin d => sat Φ ((0 : Φ.toRounding.F))) = fun _ => (0 : Fl Φ) := by
    funext _; exact sat_zero
  rw [e0, sat_zero] at key
  unfold satTree
  dsimp only [TreeData.map]
  rw [h4]
  exact congrArg Prod.snd key

/-- The finite number, as a number without upper limit (zero for infinities and NaN). -/
def unsat : Fl Φ → Φ.toRounding.F
  | .fin x h => ⟨x, h.1⟩
  | _ => 0

/-- Finite. -/
def Finite (x : Fl Φ) : Prop := ∃ a h, x = .fin a h

/-- Finite and of absolute value at most `B`. -/
def Bounded (B : K) (x : Fl Φ) : Prop := ∃ a h, x = .fin a h ∧ |a| ≤ B

theorem Bounded.finite {B : K} {x : Fl Φ} (h : Bounded B x) : Finite x := by
  obtain ⟨a, h1, h2, _⟩ := h
  exact ⟨a, h1, h2⟩

theorem Finite.isFin {x : Fl Φ} (h : Finite x) : IsFin (unsat x) := by
  obtain ⟨a, h, rfl⟩ := h
  exact h.2

theorem Finite.sat {x : Fl Φ} (h : Finite x) : sat Φ (unsat x) = x := by
  rw [sat_fin h.isFin]
  obtain ⟨a, h, rfl⟩ := h
  rfl

theorem Bounded.isSmall {B : K} {x : Fl Φ} (h : Bounded B x) : IsSmall B (unsat x) := by
  obtain ⟨a, h, rfl, h2⟩ := h
  exact abs_le.1 h2

theorem strictWeakOn_finite {l : List (Neighbor (Fl Φ))} (h : ∀ a ∈ l, Finite a.distance) :
    StrictWeakOn Neighbor.lt l := by
  have key : ∀ a ∈ l, ∀ b ∈ l, (Neighbor.lt a b = true ↔ unsat a.distance < unsat b.distance) := by
    intro a ha b hb
    unfold Neighbor.lt
    rw [decide_eq_true_eq]
    conv_lhs => rw [← (h a ha).sat, ← (h b hb).sat]
    exact sat_lt_fin (h b hb).isFin
  have key' : ∀ a ∈ l, ∀ b ∈ l, (Neighbor.lt a b = false ↔ unsat b.distance ≤ unsat a.distance) := by
    intro a ha b hb
    rw [← not_lt, ← key a ha b hb, Bool.not_eq_true]
  refine ⟨fun a ha => (key' a ha a ha).2 le_rfl, fun a ha b hb c hc h1 h2 => ?_, fun a ha b hb c hc h1 h2 h3 h4 => ?_⟩
  · rw [key a ha b hb] at h1
    rw [key b hb c hc] at h2
    exact (key a ha c hc).2 (h1.trans h2)
  · rw [key' a ha b hb] at h1
    rw [key' b hb a ha] at h2
    rw [key' b hb c hc] at h3
    rw [key' c hc b hb] at h4
    exact ⟨(key' a ha c hc).2 (h3.trans h1), (key' c hc a ha).2 (h2.trans h4)⟩

/-- Start bounds with coordinates up to `B`. -/
def BoundsUpTo (B : K) : Bounds (Fl Φ) d → Prop
  | .fromSpace => True
  | .given mn mx => ∀ j, Bounded B (mn j) ∧ Bounded B (mx j)

theorem unsat_opts {o : BuildOpts (Fl Φ) d} {B : K} (h : BoundsUpTo B o.bounds) :
    (o.map unsat).map (sat Φ) = o ∧
    ∀ mn mx, (o.map unsat).bounds = .given mn mx → ∀ j, IsSmall B (mn j) ∧ IsSmall B (mx j) := by
  obtain ⟨S, rule, stop, b, bits⟩ := o
  cases b with
  | fromSpace => exact ⟨rfl, by simp [BuildOpts.map, Bounds.map]⟩
  | given mn mx =>
    constructor
    · simp only [BuildOpts.map, Bounds.map]
      congr 2
      · funext j; exact (h j).1.finite.sat
      · funext j; exact (h j).2.finite.sat
    · rintro mn' mx' ⟨⟩ j
      exact ⟨(h j).1.isSmall, (h j).2.isSmall⟩

section Claims
variable {M : Metric Φ.toRounding.F d} {M' : Metric (Fl Φ) d} {pts : Nat → Pt (Fl Φ) d} {n : Nat}
  {o : BuildOpts (Fl Φ) d} {fuel : Nat} {B : Φ.toRounding.F} {T : KdTree (Fl Φ) d (Branch1 (Fl Φ) d)}

/-- C84 (partial: coordinates up to half of the largest number, finite query and radius; missing: larger
coordinates, see `c84_false`): a tree of floating point numbers and the tree of the same points in arithmetic
without a largest number answer the same, where distances beyond the largest number are infinite. -/
theorem c84_partial (hM : SatMetric M M') (hB0 : 0 ≤ B) (hB : 2 * B.1 ≤ Φ.big)
    (hp : ∀ i j, Bounded B.1 (pts i j)) (hb : BoundsUpTo B.1 o.bounds) (hn : 0 < n)
    (hs : ∀ m, o.stop = .maxLeafSize m → 1 ≤ m ∧ m < 2 ^ (o.indexBits - 1))
    (h : KdTree.make (euclideanTag (Fl Φ) d) M' (Fl.num Φ) pts n o fuel = .ok T) :
    ∃ U, KdTree.make (euclideanTag Φ.toRounding.F d) M (satNum Φ) (fun i j => unsat (pts i j)) n (o.map unsat) fuel =
        .ok U ∧
      ∀ q : Pt (Fl Φ) d, (∀ j, Finite (q j)) →
        (∀ nn, T.searchNn q nn = satN Φ (U.searchNn (fun j => unsat (q j)) ⟨nn.index, 0⟩)) ∧
        (∀ k prior, (∀ a ∈ prior, Finite a.distance) →
          T.searchKnn q k prior = (U.searchKnn (fun j => unsat (q j)) k
            (prior.map fun a => ⟨a.index, unsat a.distance⟩)).map (List.map (satN Φ))) ∧
        ∀ (sorter : StdSort (Neighbor (Fl Φ))) (sorter' : StdSort (Neighbor Φ.toRounding.F)) r prior prior',
          Finite r → T.searchRadius sorter q r prior false =
            (U.searchRadius sorter' (fun j => unsat (q j)) (unsat r) prior' false).map (satN Φ) ∧
          (T.searchRadius sorter q r prior true).Perm (T.searchRadius sorter q r prior false) ∧
          (T.searchRadius sorter q r prior true).Pairwise fun a b => ¬ b.distance < a.distance := by
  obtain ⟨ho, hb'⟩ := unsat_opts hb
  have hp' : ∀ i j, IsSmall B.1 (unsat (pts i j)) := fun i j => (hp i j).isSmall
  have hpe : (fun i j => sat Φ (unsat (pts i j))) = pts := by
    funext i j; exact (hp i j).finite.sat
  have hmk := sat_make (M := M) (M' := M') (fuel := fuel) hB hp' hb' hn
  rw [ho, hpe, h] at hmk
  cases hU : KdTree.make (euclideanTag Φ.toRounding.F d) M (satNum Φ) (fun i j => unsat (pts i j)) n
      (o.map unsat) fuel with
  | ub => rw [hU] at hmk; simp [Outcome.map] at hmk
  | oof => rw [hU] at hmk; simp [Outcome.map] at hmk
  | ok U =>
    rw [hU] at hmk
    simp only [Outcome.map, Outcome.ok.injEq] at hmk
    subst hmk
    refine ⟨U, rfl, fun q hq => ?_⟩
    have hqf : ∀ j, IsFin (unsat (q j)) := fun j => (hq j).isFin
    have hqe : (fun j => sat Φ (unsat (q j))) = q := by funext j; exact (hq j).sat
    have hUn : U.num = satNum Φ := (make_fields hU).2.2.1
    refine ⟨fun nn => ?_, fun k prior hprior => ?_, fun sorter sorter' r prior prior' hr => ?_⟩
    · have := sat_search hM hB0 hB hp' hb' hn hs hU hqf satVisitor_nn
        (s := nnInit (satNum Φ) ⟨nn.index, 0⟩) isFin_big
      rw [hqe] at this
      unfold KdTree.searchNn
      rw [hUn, ← this]
      congr 1
      simp only [nnInit, satN, sat_big]
      rfl
    · unfold KdTree.searchKnn KdTree.searchKnnRange
      have hnn : (satTree M' U).n = U.n := rfl
      rw [hnn, hUn]
      have hres : KdTree.resize (min k U.n) prior =
          (KdTree.resize (min k U.n) (prior.map fun a => (⟨a.index, unsat a.distance⟩ : Neighbor Φ.toRounding.F))).map
            (satN Φ) := by
        unfold KdTree.resize
        rw [List.map_append, ← List.map_take, List.map_map, List.length_map, List.map_replicate]
        congr 1
        · have : ∀ a ∈ prior.take (min k U.n), a =
              (satN Φ ∘ fun a => (⟨a.index, unsat a.distance⟩ : Neighbor Φ.toRounding.F)) a := by
            intro a ha
            simp only [Function.comp, satN, (hprior a (List.mem_of_mem_take ha)).sat]
          conv_lhs => rw [← List.map_id (prior.take (min k U.n))]
          exact List.map_congr_left this
        · simp only [satN, sat_zero]
      have hfin : ∀ x ∈ KdTree.resize (min k U.n)
          (prior.map fun a => (⟨a.index, unsat a.distance⟩ : Neighbor Φ.toRounding.F)), IsFin x.distance := by
        intro x hx
        rcases List.mem_append.1 hx with hx | hx
        · obtain ⟨a, ha, rfl⟩ := List.mem_map.1 (List.mem_of_mem_take hx)
          exact (hprior a ha).isFin
        · rw [List.eq_of_mem_replicate hx]; exact isFin_zero
      rw [hres]
      generalize KdTree.resize (min k U.n)
          (prior.map fun a => (⟨a.index, unsat a.distance⟩ : Neighbor Φ.toRounding.F)) = buf at hfin
      unfold knnInit
      rw [List.getLast?_map]
      cases hg : buf.getLast? with
      | none => rfl
      | some x =>
        simp only [Option.map_some, Outcome.bind, Outcome.map]
        have := sat_search hM hB0 hB hp' hb' hn hs hU hqf satVisitor_knn
          (s := ⟨buf.set (buf.length - 1) { x with distance := (satNum Φ).big }, 0⟩) (by
            intro y hy
            rcases List.mem_or_eq_of_mem_set hy with hy | rfl
            · exact hfin y hy
            · exact isFin_big)
        rw [hqe] at this
        have hnum : (satTree M' U).num = Fl.num Φ := rfl
        rw [hnum]
        have hst : satK Φ ⟨buf.set (buf.length - 1) { x with distance := (satNum Φ).big }, 0⟩ =
            ⟨(buf.map (satN Φ)).set ((buf.map (satN Φ)).length - 1) { satN Φ x with distance := (Fl.num Φ).big }, 0⟩ := by
          unfold satK
          rw [List.map_set, List.length_map]
          simp only [satN, sat_big]
        rw [← hst, this]
        rfl
    · have := sat_search hM hB0 hB hp' hb' hn hs hU hqf (satVisitor_radius hr.isFin) (s := []) trivial
      rw [hqe, hr.sat] at this
      refine ⟨this, ?_⟩
      have hfin : ∀ a ∈ (satTree M' U).searchRadius sorter q r prior false, Finite a.distance := by
        intro a ha
        have e : (satTree M' U).searchRadius sorter q r prior false =
            (U.searchRadius sorter' (fun j => unsat (q j)) (unsat r) prior' false).map (satN Φ) := this
        rw [e] at ha
        obtain ⟨b, hb, rfl⟩ := List.mem_map.1 ha
        obtain ⟨i, hi, rfl, h2⟩ := c81_radius sorter' U _ _ prior' b hb
        rw [(make_fields hU).2.1] at h2 ⊢
        have h0 : (0 : K) ≤ _ := hM.axis.dist_nonneg (fun j => unsat (q j)) (U.pts i)
        have h3 : (M.dist (fun j => unsat (q j)) (U.pts i)).1 < (unsat r).1 := h2
        have hbig := Φ.big_pos
        exact ⟨_, _, sat_fin (a := M.dist (fun j => unsat (q j)) (U.pts i))
          ⟨by linarith, h3.le.trans hr.isFin.2⟩⟩
      have hsw := strictWeakOn_finite hfin
      exact ⟨sorter.sort_perm_on _ _ hsw, (sorter.sort_sorted_on _ _ hsw).imp fun {a b} hab => by
        simpa [Neighbor.lt] using hab⟩

/-- Rounding towards the infinities keeps the order. -/
theorem lt_of_sat_lt {a b : Φ.toRounding.F} (h : sat Φ a < sat Φ b) : a < b := by
  have hbig := Φ.big_pos
  rcases sat_cases b with hb | hb | hb
  · exact (sat_lt_fin hb).1 h
  · rcases sat_cases a with ha | ha | ha
    · exact (fin_lt_sat ha).1 h
    · rw [sat_inf ha, sat_inf hb] at h
      exact absurd (show false = true from h) (by simp)
    · exact show a.1 < b.1 by linarith
  · rcases sat_cases a with ha | ha | ha
    · exact (fin_lt_sat ha).1 h
    · rw [sat_inf ha, sat_neg_inf hb] at h
      exact absurd (show false = true from h) (by simp)
    · rw [sat_neg_inf ha, sat_neg_inf hb] at h
      exact absurd (show false = true from h) (by simp)

/-- A search that is exact without overflow is exact with overflow. -/
theorem sat_exact (hM : SatMetric M M') (hB0 : 0 ≤ B) (hB : 2 * B.1 ≤ Φ.big)
    (hp : ∀ i j, Bounded B.1 (pts i j)) (hb : BoundsUpTo B.1 o.bounds) (hn : 0 < n)
    (hs : ∀ m, o.stop = .maxLeafSize m → 1 ≤ m ∧ m < 2 ^ (o.indexBits - 1))
    (h : KdTree.make (euclideanTag (Fl Φ) d) M' (Fl.num Φ) pts n o fuel = .ok T)
    (hE : ∀ U, KdTree.make (euclideanTag Φ.toRounding.F d) M (satNum Φ) (fun i j => unsat (pts i j)) n
      (o.map unsat) fuel = .ok U → ∀ q, ExactAt U q)
    (q : Pt (Fl Φ) d) (hq : ∀ j, Finite (q j)) :
    ((∃ i < n, M'.dist q (pts i) < (Fl.num Φ).big) → ∀ nn, ∃ i < n,
      T.searchNn q nn = ⟨i, M'.dist q (pts i)⟩ ∧ ∀ j < n, ¬ M'.dist q (pts j) < M'.dist q (pts i)) ∧
    ((∀ i < n, M'.dist q (pts i) < (Fl.num Φ).big) → ∀ k prior, 0 < k → (∀ a ∈ prior, Finite a.distance) →
      ∃ out rest, T.searchKnn q k prior = .ok out ∧ out.length = min k n ∧
        (out ++ rest).Perm ((List.range n).map fun i => ⟨i, M'.dist q (pts i)⟩) ∧
        (out.Pairwise fun a b => ¬ b.distance < a.distance) ∧
        ∀ a ∈ out, ∀ b ∈ rest, ¬ b.distance < a.distance) ∧
    ∀ sorter r prior sort, Finite r → (T.searchRadius sorter q r prior sort).Perm
      (((List.range n).filter fun i => decide (M'.dist q (pts i) < r)).map fun i => ⟨i, M'.dist q (pts i)⟩) ∧
      (sort = true → (T.searchRadius sorter q r prior sort).Pairwise fun a b => ¬ b.distance < a.distance) := by
  obtain ⟨U, hU, hans⟩ := c84_partial hM hB0 hB hp hb hn hs h
  obtain ⟨a1, a2, a3⟩ := hans q hq
  have hx := hE U hU fun j => unsat (q j)
  obtain ⟨-, e2, e3, e4, e5⟩ := make_fields hU
  have hd : ∀ i, M'.dist q (pts i) = sat Φ (M.dist (fun j => unsat (q j)) (fun j => unsat (pts i j))) := by
    intro i
    rw [← hM.dist _ _ (fun j => (hq j).isFin) (fun j => (hp i j).finite.isFin)]
    congr 1
    · funext j; exact (hq j).sat.symm
    · funext j; exact (hp i j).finite.sat.symm
  have hd0 : ∀ i, 0 ≤ M.dist (fun j => unsat (q j)) (fun j => unsat (pts i j)) := fun i => hM.axis.dist_nonneg _ _
  generalize hdist : (fun i => M.dist (fun j => unsat (q j)) (fun j => unsat (pts i j))) = dist at *
  have hdist' : ∀ i, M.dist (fun j => unsat (q j)) (fun j => unsat (pts i j)) = dist i := fun i => congrFun hdist i
  simp only [hdist'] at hd hd0
  have hbig : ∀ i, M'.dist q (pts i) < (Fl.num Φ).big ↔ dist i < (satNum Φ).big := by
    intro i
    rw [hd, ← sat_big]
    exact sat_lt_fin isFin_big
  refine ⟨fun ⟨i0, hi0, hlt⟩ nn => ?_, fun hall k prior hk hprior => ?_, fun sorter r prior sort hr => ?_⟩
  · have hf := hx.final nnVisitor (fun _ => True) (nnInit U.num ⟨nn.index, 0⟩)
      (fun s i _ hs => shrinks_nn (fun i => U.metric.dist _ (U.pts i)) s i trivial hs) trivial
    rw [e2, e3, e4, e5, hdist] at hf
    obtain ⟨vis, skip, hperm, he, hk⟩ := hf
    have hmem := perm_range_mem hperm
    have hres : U.searchNn (fun j => unsat (q j)) ⟨nn.index, 0⟩ =
        visitAll nnVisitor dist vis (nnInit (satNum Φ) ⟨nn.index, 0⟩) := by
      unfold KdTree.searchNn; rw [e3]; exact he
    rw [he] at hk
    rw [hbig] at hlt
    rcases nn_visitAll dist vis (nnInit (satNum Φ) ⟨nn.index, 0⟩) with ⟨h1, h2⟩ | ⟨i, hi, h1, h2, h3⟩
    · exfalso
      rw [h1] at hk
      rcases (hmem i0).1 hi0 with h0 | h0
      · exact absurd hlt (not_lt.2 (h2 i0 h0))
      · exact absurd hlt (not_lt.2 (hk i0 h0))
    · rw [h1] at hk
      refine ⟨i, (hmem i).2 (.inl hi), ?_, ?_⟩
      · rw [a1, hres, h1, hd]; rfl
      · intro j hj hc
        rw [hd, hd] at hc
        have hc := lt_of_sat_lt hc
        rcases (hmem j).1 hj with hj | hj
        · exact absurd hc (not_lt.2 (h3 j hj))
        · exact absurd hc (not_lt.2 (hk j hj))
  · obtain ⟨out, ho, hkn⟩ := hx.knn (by rw [e5]; exact hn) (by
      rw [e2, e3, e4, e5]
      intro i hi
      exact (show M.dist _ _ = dist i from hdist' i) ▸ (hbig i).1 (hall i hi)) k hk
      (prior.map fun a => ⟨a.index, unsat a.distance⟩)
    rw [e2, e4, e5, hdist] at hkn
    obtain ⟨rest, hperm, hrest⟩ := hkn.rest
    refine ⟨out.map (satN Φ), rest.map (satN Φ), ?_, ?_, ?_, ?_, ?_⟩
    · rw [a2 k prior hprior, ho]; rfl
    · rw [List.length_map]; exact hkn.length
    · rw [← List.map_append]
      have := hperm.map (satN Φ)
      unfold Spec.all at this
      rw [List.map_map] at this
      simp only [hd]
      exact this
    · rw [List.pairwise_map]
      exact hkn.sorted.imp fun hab hc => absurd (lt_of_sat_lt hc) (not_lt.2 hab)
    · intro a ha b hb hc
      obtain ⟨a', ha1, rfl⟩ := List.mem_map.1 ha
      obtain ⟨b', hb1, rfl⟩ := List.mem_map.1 hb
      exact absurd (lt_of_sat_lt hc) (not_lt.2 (hrest _ ha1 _ hb1))
  · have hrad := (hx.radius (Ref.sorter _) (unsat r) [] false).1
    obtain ⟨b1, b2, b3⟩ := a3 sorter (Ref.sorter _) r prior [] hr
    refine ⟨?_, fun hs => by rw [hs]; exact b3⟩
    suffices hsuff : (T.searchRadius sorter q r prior false).Perm (((List.range n).filter fun i =>
        decide (M'.dist q (pts i) < r)).map fun i => ⟨i, M'.dist q (pts i)⟩) by
      cases sort with
      | false => exact hsuff
      | true => exact b2.trans hsuff
    rw [b1]
    rw [e2, e4, e5, hdist] at hrad
    refine (hrad.map (satN Φ)).trans (List.Perm.of_eq ?_)
    unfold Spec.all
    rw [List.filter_map, List.map_map]
    simp only [hd]
    have : ∀ i, sat Φ (dist i) < r ↔ dist i < unsat r := by
      intro i
      conv_lhs => rw [← hr.sat]
      exact sat_lt_fin hr.isFin
    simp only [this]
    rfl

/-- C84 in one dimension (partial as `c84_partial`): with `metric_l1` and `metric_l2_squared` the searches are
exact with respect to the computed distances, although coordinate differences, squares and the distances to
nodes may overflow. -/
theorem c84_one_dim_partial {pts : Nat → Pt (Fl Φ) 1} {o : BuildOpts (Fl Φ) 1} {M' : Metric (Fl Φ) 1}
    {T : KdTree (Fl Φ) 1 (Branch1 (Fl Φ) 1)} (h1 : 1 ≤ Φ.big)
    (hM : M' = metricL1 (Fl Φ) 1 ∨ M' = metricL2Sq (Fl Φ) 1) (hB0 : 0 ≤ B) (hB : 2 * B.1 ≤ Φ.big)
    (hp : ∀ i j, Bounded B.1 (pts i j)) (hb : BoundsUpTo B.1 o.bounds) (hn : 0 < n)
    (hs : ∀ m, o.stop = .maxLeafSize m → 1 ≤ m ∧ m < 2 ^ (o.indexBits - 1))
    (h : KdTree.make (euclideanTag (Fl Φ) 1) M' (Fl.num Φ) pts n o fuel = .ok T)
    (q : Pt (Fl Φ) 1) (hq : ∀ j, Finite (q j)) :
    ((∃ i < n, M'.dist q (pts i) < (Fl.num Φ).big) → ∀ nn, ∃ i < n,
      T.searchNn q nn = ⟨i, M'.dist q (pts i)⟩ ∧ ∀ j < n, ¬ M'.dist q (pts j) < M'.dist q (pts i)) ∧
    ((∀ i < n, M'.dist q (pts i) < (Fl.num Φ).big) → ∀ k prior, 0 < k → (∀ a ∈ prior, Finite a.distance) →
      ∃ out rest, T.searchKnn q k prior = .ok out ∧ out.length = min k n ∧
        (out ++ rest).Perm ((List.range n).map fun i => ⟨i, M'.dist q (pts i)⟩) ∧
        (out.Pairwise fun a b => ¬ b.distance < a.distance) ∧
        ∀ a ∈ out, ∀ b ∈ rest, ¬ b.distance < a.distance) ∧
    ∀ sorter r prior sort, Finite r → (T.searchRadius sorter q r prior sort).Perm
      (((List.range n).filter fun i => decide (M'.dist q (pts i) < r)).map fun i => ⟨i, M'.dist q (pts i)⟩) ∧
      (sort = true → (T.searchRadius sorter q r prior sort).Pairwise fun a b => ¬ b.distance < a.distance) := by
  have hR := (small_box (o := o.map unsat) hB (fun i j => (hp i j).isSmall) (unsat_opts hb).2 hn).2
  rcases hM with rfl | rfl
  · exact sat_exact (satMetric_l1 1) hB0 hB hp hb hn hs h (fun U hU q =>
      exactAt_one_dim Φ.toRounding.laws (axis_l1 Φ.toRounding.laws) hU hR hn q) q hq
  · exact sat_exact (satMetric_l2Sq h1 1) hB0 hB hp hb hn hs h (fun U hU q =>
      exactAt_one_dim Φ.toRounding.laws (axis_l2Sq Φ.toRounding.laws Φ.toRounding.squareLaws) hU hR hn q) q hq

theorem height_map {β β' : Type} (f : β → β') (t : Tree β) : Spec.height (t.map f) = Spec.height t := by
  induction t with
  | leaf _ _ => rfl
  | branch _ l r ihl ihr => simp only [Tree.map, Spec.height, ihl, ihr]

/-- C84 in any dimension (partial as `c84_partial`): the error bound of C46 holds for floating point numbers
that overflow. -/
theorem c84_error_partial {u : K} (hu : Φ.toRounding.Error u) (hu0 : 0 ≤ u) (hu1 : u ≤ 1) (hM : SatMetric M M')
    (hB0 : 0 ≤ B) (hB : 2 * B.1 ≤ Φ.big)
    (hp : ∀ i j, Bounded B.1 (pts i j)) (hb : BoundsUpTo B.1 o.bounds) (hn : 0 < n)
    (hs : ∀ m, o.stop = .maxLeafSize m → 1 ≤ m ∧ m < 2 ^ (o.indexBits - 1))
    (h : KdTree.make (euclideanTag (Fl Φ) d) M' (Fl.num Φ) pts n o fuel = .ok T)
    (q : Pt (Fl Φ) d) (hq : ∀ j, Finite (q j))
    (hbig : ∀ i < n, ∃ a h, M'.dist q (pts i) = .fin a h ∧
      (1 + u) ^ (2 * Spec.height T.data.root) * a < (1 - u) ^ d * Φ.big) (nn : Neighbor (Fl Φ)) :
    ∃ i < n, T.searchNn q nn = ⟨i, M'.dist q (pts i)⟩ ∧
      ∃ a h, M'.dist q (pts i) = .fin a h ∧ ∀ j < n, ∀ b h', M'.dist q (pts j) = .fin b h' →
        (1 - u) ^ d * a ≤ (1 + u) ^ (2 * Spec.height T.data.root) * b := by
  have hR := (small_box (o := o.map unsat) hB (fun i j => (hp i j).isSmall) (unsat_opts hb).2 hn).2
  have hd : ∀ i, M'.dist q (pts i) = sat Φ (M.dist (fun j => unsat (q j)) (fun j => unsat (pts i j))) := by
    intro i
    rw [← hM.dist _ _ (fun j => (hq j).isFin) (fun j => (hp i j).finite.isFin)]
    congr 1
    · funext j; exact (hq j).sat.symm
    · funext j; exact (hp i j).finite.sat.symm
  have hfin : ∀ {x : Φ.toRounding.F} {a : K} {h}, sat Φ x = .fin a h → x.1 = a := by
    intro x a h e
    rcases sat_cases x with hx | hx | hx
    · rw [sat_fin hx] at e; exact (Fl.fin.inj e)
    · rw [sat_inf hx] at e; cases e
    · rw [sat_neg_inf hx] at e; cases e
  obtain ⟨U, hU, hans⟩ := c84_partial hM hB0 hB hp hb hn hs h
  have hh : Spec.height T.data.root = Spec.height U.data.root := by
    have hmk := sat_make (M := M) (M' := M') (fuel := fuel) (n := n) (o := o.map unsat) hB
      (fun i j => (hp i j).isSmall) (unsat_opts hb).2 hn
    rw [(unsat_opts hb).1, hU, show (fun i j => sat Φ (unsat (pts i j))) = pts from by
      funext i j; exact (hp i j).finite.sat, h] at hmk
    cases hmk
    exact height_map _ _
  obtain ⟨i, hi, h1, h2⟩ := c46_nn_partial hu hu0 hu1 hM.axis hU hR hn (fun j => unsat (q j)) (by
    intro i hi
    obtain ⟨a, ha, e, hlt⟩ := hbig i hi
    rw [hd] at e
    rw [← hh, hfin e]
    exact hlt) ⟨nn.index, 0⟩
  refine ⟨i, hi, ?_, ?_⟩
  · rw [(hans q hq).1, h1, hd]; rfl
  · obtain ⟨a, ha, e, -⟩ := hbig i hi
    refine ⟨a, ha, e, fun j hj b hb e' => ?_⟩
    rw [hd] at e e'
    have := h2 j hj
    rwa [hfin e, hfin e', ← hh] at this

end Claims

end

/-! ## Witnesses -/

/-- Three points with first coordinates above half of the largest `float`. -/
def largePts : Nat → Pt (Fl float32) 2
  | 0 => ![fl (260 * 10 ^ 36), 0]
  | 1 => ![fl (296 * 10 ^ 36), fl (-20 * 10 ^ 36)]
  | _ => ![fl (330 * 10 ^ 36), fl (25 * 10 ^ 36)]

/-- C84 is false for larger coordinates: `left_max + right_min` overflows, the far child is visited first and
the near one with an offset it does not have; the nearest neighbor is missed although no distance overflows. -/
theorem c84_false : ∃ T, KdTree.make (euclideanTag (Fl float32) 2) (metricL1 (Fl float32) 2) (Fl.num float32)
      largePts 3 ⟨Ref.std, .sliding, .maxLeafSize 1, .fromSpace, 32⟩ 10 = .ok T ∧
    (T.searchNn ![fl (330 * 10 ^ 36), 0] ⟨0, 0⟩).index = 1 ∧
    fl (53 * 10 ^ 36) < (T.searchNn ![fl (330 * 10 ^ 36), 0] ⟨0, 0⟩).distance ∧
    (metricL1 (Fl float32) 2).dist ![fl (330 * 10 ^ 36), 0] (largePts 2) = fl (25 * 10 ^ 36) := by
  obtain ⟨T, h1, h2⟩ := Outcome.exists_of_check (x := KdTree.make (euclideanTag (Fl float32) 2)
    (metricL1 (Fl float32) 2) (Fl.num float32) largePts 3 ⟨Ref.std, .sliding, .maxLeafSize 1, .fromSpace, 32⟩ 10)
    (p := fun T => decide ((T.searchNn ![fl (330 * 10 ^ 36), 0] ⟨0, 0⟩).index = 1 ∧
      fl (53 * 10 ^ 36) < (T.searchNn ![fl (330 * 10 ^ 36), 0] ⟨0, 0⟩).distance)) (by decide +kernel)
  obtain ⟨h3, h4⟩ := of_decide_eq_true h2
  exact ⟨T, h1, h3, h4, by decide +kernel⟩

/-- Three points, two so far away that squares overflow. -/
def wide : Nat → Pt (Fl float32) 1
  | 0 => ![fl (-2 ^ 126)]
  | 1 => ![fl 1]
  | _ => ![fl (2 ^ 126)]

theorem bounded_fl {q B : ℚ} (h : (decide (float32.rd q ≤ float32.big) && decide (-float32.big ≤ float32.rd q) &&
    decide (float32.rd q ≤ B) && decide (-B ≤ float32.rd q)) = true) : Bounded B (fl q) := by
  simp only [Bool.and_eq_true, decide_eq_true_eq] at h
  obtain ⟨⟨⟨h1, h2⟩, h3⟩, h4⟩ := h
  refine ⟨float32.rd q, ⟨float32.idem q, h2, h1⟩, ?_, abs_le.2 ⟨h4, h3⟩⟩
  rw [fl, Fl.ofK, dif_neg (not_lt.2 h1), dif_neg (not_lt.2 h2)]

/-- The hypotheses of `c84_one_dim_partial` are met although squared distances overflow. -/
example : ∃ T, KdTree.make (euclideanTag (Fl float32) 1) (metricL2Sq (Fl float32) 1) (Fl.num float32) wide 3
      ⟨Ref.std, .midpoint, .maxLeafSize 1, .fromSpace, 32⟩ 200 = .ok T ∧
    (metricL2Sq (Fl float32) 1).dist ![fl 3] (wide 2) = .inf false ∧
    ∃ i < 3, T.searchNn ![fl 3] ⟨0, 0⟩ = ⟨i, (metricL2Sq (Fl float32) 1).dist ![fl 3] (wide i)⟩ ∧
      ∀ j < 3, ¬ (metricL2Sq (Fl float32) 1).dist ![fl 3] (wide j) < (metricL2Sq (Fl float32) 1).dist ![fl 3] (wide i) := by
  obtain ⟨T, h1, -⟩ := Outcome.exists_of_check (x := KdTree.make (euclideanTag (Fl float32) 1)
    (metricL2Sq (Fl float32) 1) (Fl.num float32) wide 3 ⟨Ref.std, .midpoint, .maxLeafSize 1, .fromSpace, 32⟩ 200)
    (p := fun _ => true) (by decide +kernel)
  refine ⟨T, h1, by decide +kernel, ?_⟩
  have hp : ∀ i j, Bounded ((2 : ℚ) ^ 126) (wide i j) := by
    intro i j
    match i with
    | 0 => fin_cases j; exact bounded_fl (by decide +kernel)
    | 1 => fin_cases j; exact bounded_fl (by decide +kernel)
    | _ + 2 => fin_cases j; exact bounded_fl (by decide +kernel)
  exact (c84_one_dim_partial (Φ := float32) (o := ⟨Ref.std, .midpoint, .maxLeafSize 1, .fromSpace, 32⟩)
    (B := ⟨2 ^ 126, by decide +kernel⟩) (by decide +kernel) (.inr rfl)
    (show (0 : ℚ) ≤ 2 ^ 126 by norm_num) (by decide +kernel) hp trivial (by decide) (fun m hm => by cases hm; decide) h1 ![fl 3]
    (by intro j; fin_cases j; exact (bounded_fl (B := 4) (by decide +kernel)).finite)).1
    ⟨1, by decide, by decide +kernel⟩ _

end Pico.Props
