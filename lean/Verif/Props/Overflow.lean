import Verif.Proof.Ext
import Verif.Props.Box
import Verif.Props.Nan
import Verif.Props.Stream

/-!
# C83: coordinates of any size

Floating point coordinates so large that side lengths and split values overflow, and infinite coordinates.
-/

set_option linter.unusedSectionVars false

namespace Pico.Props

open Pico Spec

section
variable {K : Type} [Field K] [LinearOrder K] [IsStrictOrderedRing K] {Φ : FloatFormat K} {d : Nat}

/-- The bounds of the options are not NaN. -/
def BoundsNoNan : Bounds (Fl Φ) d → Prop
  | .fromSpace => True
  | .given mn mx => ∀ j, mn j ≠ .nan ∧ mx j ≠ .nan

/-- Every point lies between the bounds (`BoundsContain`, for floating point numbers). -/
def FlBoundsContain (pts : Nat → Pt (Fl Φ) d) (n : Nat) : Bounds (Fl Φ) d → Prop
  | .fromSpace => True
  | .given mn mx => ∀ i < n, ∀ j, (mn j ≤ pts i j ∨ mx j ≤ pts i j) ∧ (pts i j ≤ mn j ∨ pts i j ≤ mx j)

/-- The branch data with mapped scalars. -/
def map1 {α γ : Type} (e : α → γ) (b : Branch1 α d) : Branch1 γ d := ⟨b.splitDim, e b.leftMax, e b.rightMin⟩

def map2 {α γ : Type} (e : α → γ) (b : Branch2 α d) : Branch2 γ d :=
  ⟨b.splitDim, e b.leftMin, e b.leftMax, e b.rightMin, e b.rightMax⟩

/-- The options over the ordered numbers. -/
def extOpts (o : BuildOpts (Fl Φ) d) : BuildOpts (Ext Φ) d := o.map Ext.ofFl

theorem extOpts_map {o : BuildOpts (Fl Φ) d} (h : BoundsNoNan o.bounds) : (extOpts o).map Ext.val = o := by
  obtain ⟨S, rule, stop, b, bits⟩ := o
  cases b with
  | fromSpace => rfl
  | given mn mx =>
    simp only [extOpts, BuildOpts.map, Bounds.map]
    congr 2
    · funext j; exact Ext.ofFl_val (h j).1
    · funext j; exact Ext.ofFl_val (h j).2

theorem extPts_val {pts : Nat → Pt (Fl Φ) d} (h : ∀ i j, pts i j ≠ .nan) :
    (fun i j => (Ext.ofFl (pts i j)).val) = pts := by
  funext i j; exact Ext.ofFl_val (h i j)

/-- A metric over the ordered numbers with the same circle axes; only these matter for boxes. -/
def extMetric (M : Metric (Fl Φ) d) : Metric (Ext Φ) d := ⟨fun _ _ => 0, fun _ => 0, M.space⟩

/-- The construction on `Fl` is the construction on `Ext`. -/
theorem ext_make {β β' : Type} {tag : SpaceTag (Ext Φ) d β} {tag' : SpaceTag (Fl Φ) d β'} (f : β → β')
    (hf : ∀ bl br dim, tag'.setBranch (bl.map Ext.val) (br.map Ext.val) dim = f (tag.setBranch bl br dim))
    (M : Metric (Fl Φ) d) {pts : Nat → Pt (Fl Φ) d} (hp : ∀ i j, pts i j ≠ .nan) {o : BuildOpts (Fl Φ) d}
    (hb : BoundsNoNan o.bounds) (hr : o.rule ≠ .midpoint) (n fuel : Nat) :
    KdTree.make tag' M (Fl.num Φ) pts n o fuel =
      (KdTree.make tag (extMetric M) (Ext.num Φ) (fun i j => Ext.ofFl (pts i j)) n (extOpts o) fuel).map
        fun T => ⟨tag', M, Fl.num Φ, pts, n, T.data.map Ext.val f⟩ := by
  have := (Ext.embeds (Φ := Φ) o.rule hr).make (tag := tag) (tag' := tag') (M := extMetric M) (M' := M)
    (pts := fun i j => Ext.ofFl (pts i j)) (n := n) (o := extOpts o) rfl f hf (fun _ _ => trivial)
    (fun _ _ _ _ => ⟨trivial, trivial⟩) (fun _ => ⟨trivial, trivial⟩) fuel
  rw [extPts_val hp, extOpts_map hb] at this
  exact this

theorem Outcome.ok_of_map {τ υ : Type} {f : τ → υ} {x : Outcome τ} {b : υ} (h : x.map f = .ok b) :
    ∃ a, x = .ok a ∧ b = f a := by
  cases x with
  | ok a => exact ⟨a, rfl, by simpa [Outcome.map] using h.symm⟩
  | ub => simp [Outcome.map] at h
  | oof => simp [Outcome.map] at h

theorem ext_contain {pts : Nat → Pt (Fl Φ) d} (hp : ∀ i j, pts i j ≠ .nan) {n : Nat} {o : BuildOpts (Fl Φ) d}
    (hb : BoundsNoNan o.bounds) (hc : FlBoundsContain pts n o.bounds) :
    BoundsContain (fun i j => Ext.ofFl (pts i j)) n (extOpts o).bounds := by
  obtain ⟨S, rule, stop, b, bits⟩ := o
  cases b with
  | fromSpace => trivial
  | given mn mx =>
    intro i hi j
    simp only [Ext.le_def, Ext.ofFl_val (hp i j), Ext.ofFl_val (hb j).1, Ext.ofFl_val (hb j).2]
    exact hc i hi j

variable {M : Metric (Fl Φ) d} {pts : Nat → Pt (Fl Φ) d} {n : Nat} {o : BuildOpts (Fl Φ) d} {fuel : Nat}

theorem ranges_map {β β' : Type} (f : β → β') (t : Tree β) : ranges (t.map f) = ranges t := by
  induction t with
  | leaf b e => rfl
  | branch data l r ihl ihr => rw [Tree.map, ranges_branch, ranges_branch, ihl, ihr]

/-- Box searches on `Fl` are box searches on `Ext`. -/
theorem ext_searchBox1 (T : KdTree (Ext Φ) d (Branch1 (Ext Φ) d)) (ht : T.tag = euclideanTag (Ext Φ) d)
    (M : Metric (Fl Φ) d) (a b : Pt (Ext Φ) d) (prior : List Nat) :
    KdTree.searchBox (⟨euclideanTag (Fl Φ) d, M, Fl.num Φ, fun i j => (T.pts i j).val, T.n,
      T.data.map Ext.val (map1 Ext.val)⟩ : KdTree (Fl Φ) d (Branch1 (Fl Φ) d)) (fun j => (a j).val)
      (fun j => (b j).val) prior = T.searchBox a b prior := by
  unfold KdTree.searchBox
  dsimp only [TreeData.map]
  rw [ht]
  refine congrArg Prod.snd (searchBox_map (Ext.val : Ext Φ → Fl Φ) (map1 Ext.val) ?_ ?_ ?_ ?_ ?_ ?_ T.data.indices
    T.data.root T.data.rootBox _)
  all_goals exact fun _ => rfl

theorem ext_searchBox2 (T : KdTree (Ext Φ) d (Branch2 (Ext Φ) d)) (ht : T.tag = topologicalTag (Ext Φ) d)
    (M : Metric (Fl Φ) d) (hM : T.metric.space = M.space) (a b : Pt (Ext Φ) d) (prior : List Nat) :
    KdTree.searchBox (⟨topologicalTag (Fl Φ) d, M, Fl.num Φ, fun i j => (T.pts i j).val, T.n,
      T.data.map Ext.val (map2 Ext.val)⟩ : KdTree (Fl Φ) d (Branch2 (Fl Φ) d)) (fun j => (a j).val)
      (fun j => (b j).val) prior = T.searchBox a b prior := by
  unfold KdTree.searchBox
  dsimp only [TreeData.map]
  rw [ht]
  dsimp only [topologicalTag]
  rw [hM]
  refine congrArg Prod.snd (searchBox_map (Ext.val : Ext Φ → Fl Φ) (map2 Ext.val) ?_ ?_ ?_ ?_ ?_ ?_ T.data.indices
    T.data.root T.data.rootBox _)
  all_goals exact fun _ => rfl

/-- C83 (partial: median and sliding midpoint rule; missing: the midpoint rule): whenever the construction
succeeds, its leaves partition the points. -/
theorem c83_partition_partial {T : KdTree (Fl Φ) d (Branch1 (Fl Φ) d)}
    (h : KdTree.make (euclideanTag (Fl Φ) d) M (Fl.num Φ) pts n o fuel = .ok T)
    (hp : ∀ i j, pts i j ≠ .nan) (hb : BoundsNoNan o.bounds) (hr : o.rule ≠ .midpoint) :
    T.data.indices.Perm (List.range n) ∧ Tiles 0 (ranges T.data.root) n := by
  rw [ext_make (tag := euclideanTag (Ext Φ) d) (map1 Ext.val) (fun _ _ _ => rfl) M hp hb hr] at h
  obtain ⟨T', h', rfl⟩ := Outcome.ok_of_map h
  obtain ⟨h1, h2, -⟩ := c16_partition h'
  refine ⟨h1, ?_⟩
  simp only [TreeData.map, ranges_map]
  exact h2

/-- C83 (partial: median and sliding midpoint rule, an axis with finite coordinates; missing: the midpoint
rule, see `c83_false`, and points without such an axis, see `c83_inf_false`): the construction finishes without
undefined behaviour although side lengths may overflow. -/
theorem c83_build_partial (M : Metric (Fl Φ) d) (hp : ∀ i j, pts i j ≠ .nan)
    (hr : o.rule ≠ .midpoint) (hbd : o.bounds = .fromSpace)
    (hs : ∀ m, o.stop = .maxLeafSize m → 1 ≤ m ∧ m < 2 ^ (o.indexBits - 1)) (hn : 0 < n) (j : Fin d)
    (hj : ∀ i < n, ∃ x h, pts i j = .fin x h) :
    ∃ fuel T, ∀ f ≥ fuel, KdTree.make (euclideanTag (Fl Φ) d) M (Fl.num Φ) pts n o f = .ok T := by
  have hb : BoundsNoNan o.bounds := by rw [hbd]; trivial
  have hst : StopOk (KdTree.cfg (euclideanTag (Ext Φ) d) (Ext.num Φ) (fun i j => Ext.ofFl (pts i j)) (extOpts o)) :=
    stopOk_of hs
  have hbd' : (extOpts o).bounds = .fromSpace := by
    simp only [extOpts, BuildOpts.map, hbd, Bounds.map]
  have hfin : ∀ i < n, (Ext.num Φ).low ≤ Ext.ofFl (pts i j) ∧ Ext.ofFl (pts i j) ≤ (Ext.num Φ).big := by
    intro i hi
    rw [Ext.finite_iff, Ext.ofFl_val (hp i j)]
    exact hj i hi
  have hlo : (Ext.num Φ).low ≤ (Ext.num Φ).big := (hfin 0 hn).1.trans (hfin 0 hn).2
  have hmem := boxFromBounds_fromSpace_mem (Ext.num Φ) (fun i j => Ext.ofFl (pts i j)) n
  obtain ⟨t, s, bx, hc⟩ := created_exists_axis
    (C := KdTree.cfg (euclideanTag (Ext Φ) d) (Ext.num Φ) (fun i j => Ext.ofFl (pts i j)) (extOpts o)) j
    Ext.low_lt_sub hr hst n 0 0 (List.range n)
    (boxFromBounds (Ext.num Φ) (fun i j => Ext.ofFl (pts i j)) n (extOpts o).bounds) (by simp)
    (by
      rw [hbd']
      refine ⟨?_, (hmem 0 hn j).1.trans (hmem 0 hn j).2, ?_⟩
      · exact (foldl_fitPt_min _ _ _ j _).2 ⟨hlo, fun i hi => (hfin i (List.mem_range.1 hi)).1⟩
      · exact (foldl_fitPt_max _ _ _ j _).2 ⟨hlo, fun i hi => (hfin i (List.mem_range.1 hi)).2⟩)
    (by
      rw [hbd']
      exact fun i hi => hmem i (List.mem_range.1 hi) j)
  obtain ⟨fuel, T, hT⟩ := make_of_created (M := extMetric M) hc
  refine ⟨fuel, ⟨euclideanTag (Fl Φ) d, M, Fl.num Φ, pts, n, T.data.map Ext.val (map1 Ext.val)⟩, fun f hf => ?_⟩
  rw [ext_make (tag := euclideanTag (Ext Φ) d) (map1 Ext.val) (fun _ _ _ => rfl) M hp hb hr, hT f hf]
  rfl

/-- C83 (partial, as above): box search is exact for all coordinates and box corners that are not NaN; finite
coordinates may be of any size, coordinates and corners may be infinite. -/
theorem c83_box_partial {T : KdTree (Fl Φ) d (Branch1 (Fl Φ) d)}
    (h : KdTree.make (euclideanTag (Fl Φ) d) M (Fl.num Φ) pts n o fuel = .ok T)
    (hp : ∀ i j, pts i j ≠ .nan) (hb : BoundsNoNan o.bounds) (hr : o.rule ≠ .midpoint)
    (hc : FlBoundsContain pts n o.bounds) (mn mx : Pt (Fl Φ) d) (hmn : ∀ j, mn j ≠ .nan)
    (hmx : ∀ j, mx j ≠ .nan) (prior : List Nat) :
    IsSelection n (fun i => InBox mn mx (pts i)) (T.searchBox mn mx prior) := by
  rw [ext_make (tag := euclideanTag (Ext Φ) d) (map1 Ext.val) (fun _ _ _ => rfl) M hp hb hr] at h
  obtain ⟨T', h', rfl⟩ := Outcome.ok_of_map h
  have key := c08_box h' (ext_contain hp hb hc) (fun j => Ext.ofFl (mn j)) (fun j => Ext.ofFl (mx j)) prior
  obtain ⟨e1, e2, e3, e4, e5⟩ := make_fields h'
  have e := ext_searchBox1 T' e1 M (fun j => Ext.ofFl (mn j)) (fun j => Ext.ofFl (mx j)) prior
  rw [e4, e5] at e
  simp only [Ext.ofFl_val (hmn _), Ext.ofFl_val (hmx _), Ext.ofFl_val (hp _ _)] at e
  rw [e]
  refine ⟨key.1, fun i => (key.2 i).trans (and_congr_right fun _ => ?_)⟩
  simp only [InBox, Ext.le_def, Ext.ofFl_val (hmn _), Ext.ofFl_val (hmx _), Ext.ofFl_val (hp _ _)]

/-- C83 (partial, as above): box search in products of lines and circles. -/
theorem c83_box_topological_partial {T : KdTree (Fl Φ) d (Branch2 (Fl Φ) d)}
    (h : KdTree.make (topologicalTag (Fl Φ) d) M (Fl.num Φ) pts n o fuel = .ok T)
    (hp : ∀ i j, pts i j ≠ .nan) (hb : BoundsNoNan o.bounds) (hr : o.rule ≠ .midpoint)
    (hc : FlBoundsContain pts n o.bounds) (mn mx : Pt (Fl Φ) d) (hmn : ∀ j, mn j ≠ .nan)
    (hmx : ∀ j, mx j ≠ .nan) (prior : List Nat) :
    IsSelection n (fun i => InTopBox (fun j => M.space j = .s1) mn mx (pts i)) (T.searchBox mn mx prior) := by
  rw [ext_make (tag := topologicalTag (Ext Φ) d) (map2 Ext.val) (fun _ _ _ => rfl) M hp hb hr] at h
  obtain ⟨T', h', rfl⟩ := Outcome.ok_of_map h
  have key := c09_box h' (ext_contain hp hb hc) (fun j => Ext.ofFl (mn j)) (fun j => Ext.ofFl (mx j)) prior
  obtain ⟨e1, e2, e3, e4, e5⟩ := make_fields h'
  have e := ext_searchBox2 T' e1 M (by rw [e2]; rfl) (fun j => Ext.ofFl (mn j)) (fun j => Ext.ofFl (mx j)) prior
  rw [e4, e5] at e
  simp only [Ext.ofFl_val (hmn _), Ext.ofFl_val (hmx _), Ext.ofFl_val (hp _ _)] at e
  rw [e]
  refine ⟨key.1, fun i => (key.2 i).trans (and_congr_right fun _ => ?_)⟩
  simp only [InTopBox, OnArc, Ext.le_def, Ext.lt_def, Ext.ofFl_val (hmn _), Ext.ofFl_val (hmx _),
    Ext.ofFl_val (hp _ _), extMetric]

/-! ## The midpoint rule -/

/-- A box with finite lower bounds, upper bounds that are finite or infinite, and a side of infinite length. -/
def InfiniteSide (b : Box (Fl Φ) d) : Prop :=
  (∀ j, (∃ x h, b.min j = .fin x h) ∧ (b.max j = .inf false ∨ ∃ x h, b.max j = .fin x h)) ∧
    ∃ j, b.max j - b.min j = .inf false

theorem ofK_ne_nan (x : K) : Fl.ofK Φ x ≠ .nan := by
  unfold Fl.ofK
  split_ifs <;> simp

theorem infiniteSide_maxSide {b : Box (Fl Φ) d} (hb : InfiniteSide b) :
    ∃ i, b.maxSide (Fl.num Φ) = (some i, .inf false) := by
  obtain ⟨h1, j, hj⟩ := hb
  have hside : ∀ i, b.max i - b.min i ≠ .nan := by
    intro i
    obtain ⟨⟨x, hx, ex⟩, ey⟩ := h1 i
    rw [ex]
    rcases ey with ey | ⟨y, hy, ey⟩
    · rw [ey]; simp [HSub.hSub, Sub.sub, Fl.neg, Fl.add]
    · rw [ey]; exact ofK_ne_nan _
  have key : ∀ (l : List (Fin d)) (s : Option (Fin d) × Fl Φ),
      ((∃ i, s = (some i, .inf false)) ∨ (s.2 ≠ .nan ∧ s.2 ≠ .inf false ∧ j ∈ l)) →
      ∃ i, l.foldl (Box.maxSideStep b) s = (some i, .inf false) := by
    intro l
    induction l with
    | nil =>
      rintro s (h | ⟨_, _, h⟩)
      · exact h
      · simp at h
    | cons a l ih =>
      intro s hs
      rw [List.foldl_cons]
      apply ih
      rcases hs with ⟨i, rfl⟩ | ⟨hs1, hs2, hs3⟩
      · left
        refine ⟨i, ?_⟩
        simp only [Box.maxSideStep]
        rw [if_neg]
        rw [gt_iff_lt, Ext.fl_lt_iff]
        cases b.max a - b.min a <;> simp [Fl.blt]
      · by_cases ha : b.max a - b.min a = .inf false
        · left
          refine ⟨a, ?_⟩
          simp only [Box.maxSideStep, ha]
          rw [if_pos]
          rw [gt_iff_lt, Ext.fl_lt_iff]
          cases hs : s.2 with
          | nan => exact absurd hs hs1
          | inf t =>
            cases t with
            | false => exact absurd hs hs2
            | true => simp [Fl.blt]
          | fin x hx => simp [Fl.blt]
        · right
          have hja : j ∈ l := by
            rcases List.mem_cons.1 hs3 with rfl | h
            · exact absurd hj ha
            · exact h
          simp only [Box.maxSideStep]
          split_ifs
          · exact ⟨hside a, ha, hja⟩
          · exact ⟨hs1, hs2, hja⟩
  exact key _ _ (Or.inr ⟨Ext.low_ne, by simp [Fl.num], List.mem_finRange j⟩)

/-- The cell of all points with an infinite side splits into itself and an empty cell. -/
theorem midpoint_oof {β : Type} {C : BuildCfg (Fl Φ) d β} (hN : C.N = Fl.num Φ) (hr : C.rule = .midpoint)
    {m : Nat} (hs : C.stop = .maxLeafSize m) (fuel : Nat) :
    ∀ (depth : Int) (off : Nat) (seg : List Nat) (box : Box (Fl Φ) d),
      castIndex C.indexBits m < seg.length → (∀ i ∈ seg, ∀ j, ∃ x h, C.pts i j = .fin x h) → InfiniteSide box →
      createNode C fuel depth off seg box = .oof := by
  induction fuel with
  | zero => intros; rfl
  | succ fuel ih =>
    intro depth off seg box hlen hp hb
    have hl : isLeaf C depth seg.length = false := by
      simp only [isLeaf, hs, decide_eq_false_iff_not, not_le]
      exact hlen
    obtain ⟨dim, hm⟩ := infiniteSide_maxSide hb
    obtain ⟨⟨x, hx, ex⟩, _⟩ := hb.1 dim
    have hv : C.N.mulHalf (.inf false) + box.min dim = .inf false := by
      rw [hN, ex]
      rfl
    have hall : ∀ i ∈ seg, coordBelow C.pts dim (C.N.mulHalf (.inf false) + box.min dim) i = true := by
      intro i hi
      obtain ⟨y, hy, ey⟩ := hp i hi dim
      rw [hv]
      simp [coordBelow, ey, Ext.fl_lt_iff, Fl.blt]
    have hsp : splitter C seg box = .ok ⟨(C.S.partition (coordBelow C.pts dim (C.N.mulHalf (.inf false) +
        box.min dim)) seg).1, (C.S.partition (coordBelow C.pts dim (C.N.mulHalf (.inf false) +
        box.min dim)) seg).2, dim, C.N.mulHalf (.inf false) + box.min dim⟩ := by
      unfold splitter
      rw [hr]
      simp only [splitMidpoint, hN, hm]
    have hperm := C.S.partition_perm (coordBelow C.pts dim (C.N.mulHalf (.inf false) + box.min dim)) seg
    have hle := C.S.partition_le (coordBelow C.pts dim (C.N.mulHalf (.inf false) + box.min dim)) seg
    have hright := C.S.partition_right (coordBelow C.pts dim (C.N.mulHalf (.inf false) + box.min dim)) seg
    generalize C.S.partition (coordBelow C.pts dim (C.N.mulHalf (.inf false) + box.min dim)) seg = r at *
    obtain ⟨seg', k⟩ := r
    dsimp only at hperm hle hright hsp
    have hk : k = seg'.length := by
      rw [hperm.length_eq]
      refine le_antisymm hle (not_lt.1 fun hc => ?_)
      obtain ⟨i, hi⟩ : ∃ i, i ∈ seg'.drop k := List.exists_mem_of_length_pos (by
        rw [List.length_drop, hperm.length_eq]; omega)
      have h1 := hright i hi
      have h2 := hall i (hperm.mem_iff.1 (List.mem_of_mem_drop hi))
      rw [h1] at h2
      exact absurd h2 (by simp)
    rw [createNode, hl]
    simp only [Bool.false_eq_true, if_false, hsp, Outcome.bind]
    rw [hk, List.take_length, ih _ _ _ _ (by rw [hperm.length_eq]; exact hlen)
      (fun i hi => hp i (hperm.mem_iff.1 hi))]
    rw [hv]
    refine ⟨fun j => ⟨(hb.1 j).1, ?_⟩, dim, ?_⟩
    · by_cases hj : j = dim
      · subst hj; left; simp [Box.setMax]
      · simpa [Box.setMax, Function.update_of_ne hj] using (hb.1 j).2
    · simp only [Box.setMax, Function.update_self, ex]
      rfl

/-- C83 is false for the midpoint rule: if finite points spread so far
along an axis that the side length overflows, the construction with `max_leaf_size_t` never finishes. -/
theorem c83_false {β : Type} (tag : SpaceTag (Fl Φ) d β) (M : Metric (Fl Φ) d)
    (hp : ∀ i j, ∃ x h, pts i j = .fin x h) (hr : o.rule = .midpoint) (hbd : o.bounds = .fromSpace) {m : Nat}
    (hs : o.stop = .maxLeafSize m) (hm : castIndex o.indexBits m < n) {i k : Nat} (hi : i < n) (hk : k < n)
    {j : Fin d} (hj : pts i j - pts k j = .inf false) :
    ∀ fuel, KdTree.make tag M (Fl.num Φ) pts n o fuel = .oof := by
  intro fuel
  have hnan : ∀ i j, pts i j ≠ .nan := fun i j => by
    obtain ⟨x, h, e⟩ := hp i j
    rw [e]; simp
  have hbox : boxFromBounds (Fl.num Φ) pts n .fromSpace =
      (boxFromBounds (Ext.num Φ) (fun i j => Ext.ofFl (pts i j)) n .fromSpace).map Ext.val := by
    have := (Ext.embeds (Φ := Φ) .median (by decide)).boxFromBounds (d := d)
      (pts := fun i j => Ext.ofFl (pts i j)) (fun _ _ => trivial) n (b := .fromSpace) (by simp)
    rw [extPts_val hnan] at this
    exact this
  have hmem := boxFromBounds_fromSpace_mem (Ext.num Φ) (fun i j => Ext.ofFl (pts i j)) n
  have hfin : ∀ i j, (Ext.num Φ).low ≤ Ext.ofFl (pts i j) ∧ Ext.ofFl (pts i j) ≤ (Ext.num Φ).big := by
    intro i j
    rw [Ext.finite_iff, Ext.ofFl_val (hnan i j)]
    exact hp i j
  have hlo : (Ext.num Φ).low ≤ (Ext.num Φ).big := (hfin 0 j).1.trans (hfin 0 j).2
  set B := boxFromBounds (Ext.num Φ) (fun i j => Ext.ofFl (pts i j)) n .fromSpace with hB
  have hBfin : ∀ j, (∃ x h, (B.min j).val = .fin x h) ∧ ∃ x h, (B.max j).val = .fin x h := by
    intro j
    have h1 : (Ext.num Φ).low ≤ B.min j :=
      (foldl_fitPt_min _ _ _ j _).2 ⟨hlo, fun i _ => (hfin i j).1⟩
    have h2 : B.max j ≤ (Ext.num Φ).big :=
      (foldl_fitPt_max _ _ _ j _).2 ⟨hlo, fun i _ => (hfin i j).2⟩
    exact ⟨(Ext.finite_iff _).1 ⟨h1, (hmem i hi j).1.trans (hfin i j).2⟩,
      (Ext.finite_iff _).1 ⟨(hfin i j).1.trans (hmem i hi j).2, h2⟩⟩
  have hinf : InfiniteSide (B.map Ext.val) := by
    refine ⟨fun j => ⟨(hBfin j).1, Or.inr (hBfin j).2⟩, j, ?_⟩
    obtain ⟨⟨a, ha, ea⟩, b, hb, eb⟩ := hBfin j
    obtain ⟨x, hx, ex⟩ := hp i j
    obtain ⟨y, hy, ey⟩ := hp k j
    have h1 := (hmem i hi j).2
    have h2 := (hmem k hk j).1
    rw [Ext.le_def, Ext.ofFl_val (hnan i j), ex, eb, Ext.fl_le_iff, Fl.ble, decide_eq_true_eq] at h1
    rw [Ext.le_def, Ext.ofFl_val (hnan k j), ey, ea, Ext.fl_le_iff, Fl.ble, decide_eq_true_eq] at h2
    rw [ex, ey] at hj
    have h3 : Fl.ofK Φ (x + -y) = .inf false := hj
    have h4 : Φ.big < Φ.rd (x + -y) := by
      unfold Fl.ofK at h3
      split_ifs at h3 with c1 c2
      · exact c1
      · simp at h3
    change (B.max j).val - (B.min j).val = _
    rw [ea, eb]
    change Fl.ofK Φ (b + -a) = _
    unfold Fl.ofK
    rw [dif_pos (h4.trans_le (Φ.mono _ _ (by linarith)))]
  have := midpoint_oof (C := KdTree.cfg tag (Fl.num Φ) pts o) rfl hr hs fuel 0 0 (List.range n) (B.map Ext.val)
    (by rw [List.length_range]; exact hm) (fun i _ j => hp i j) hinf
  unfold KdTree.make buildTree
  dsimp only
  rw [hbd]
  dsimp only [KdTree.cfg] at this ⊢
  rw [hbox, this]
  rfl

end

/-! ## Witnesses -/

/-- Four points whose extent along the first axis is more than the largest `float`. -/
def farPts : Nat → Pt (Fl float32) 2
  | 0 => ![fl (-3 * 10 ^ 38), fl 1]
  | 1 => ![fl (3 * 10 ^ 38), fl 2]
  | 2 => ![fl (-1), fl 3]
  | _ => ![fl 7, fl 4]

theorem farPts_fin (i : Nat) (j : Fin 2) : ∃ x h, farPts i j = .fin x h := by
  have key : ∀ q : ℚ, (decide (float32.big < float32.rd q) || decide (float32.rd q < -float32.big)) = false →
      ∃ x h, fl q = .fin x h := by
    intro q hq
    simp only [Bool.or_eq_false_iff, decide_eq_false_iff_not] at hq
    exact ⟨_, _, by rw [fl, Fl.ofK, dif_neg hq.1, dif_neg hq.2]⟩
  match i with
  | 0 => fin_cases j <;> exact key _ (by decide +kernel)
  | 1 => fin_cases j <;> exact key _ (by decide +kernel)
  | 2 => fin_cases j <;> exact key _ (by decide +kernel)
  | _ + 3 => fin_cases j <;> exact key _ (by decide +kernel)

/-- The hypotheses of `c83_false` are met. -/
theorem c83_false_case (M : Metric (Fl float32) 2) (fuel : Nat) :
    KdTree.make (euclideanTag (Fl float32) 2) M (Fl.num float32) farPts 4
      ⟨Ref.std, .midpoint, .maxLeafSize 1, .fromSpace, 32⟩ fuel = .oof :=
  c83_false _ M farPts_fin rfl rfl rfl (by decide) (i := 1) (k := 0) (by decide) (by decide) (j := 0)
    (by decide +kernel) fuel

/-- C83 is false for points without an axis on which they are finite: three points at infinity. -/
theorem c83_inf_false : KdTree.make (euclideanTag (Fl float32) 1) (metricL1 (Fl float32) 1) (Fl.num float32)
    (fun _ => ![.inf false]) 3 ⟨Ref.std, .sliding, .maxLeafSize 1, .fromSpace, 32⟩ 10 = .ub := by
  have : (match KdTree.make (euclideanTag (Fl float32) 1) (metricL1 (Fl float32) 1) (Fl.num float32)
    (fun _ => ![.inf false]) 3 ⟨Ref.std, .sliding, .maxLeafSize 1, .fromSpace, 32⟩ 10 with
    | .ub => true | _ => false) = true := by decide +kernel
  split at this
  · assumption
  · simp at this

/-- The hypotheses of the `c83` theorems for the sliding midpoint rule are met by the same points. -/
example : ∃ fuel T, (∀ f ≥ fuel, KdTree.make (euclideanTag (Fl float32) 2) (metricL1 (Fl float32) 2) (Fl.num float32)
      farPts 4 (Ref.optsSliding (Fl float32) 2) f = .ok T) ∧
    IsSelection 4 (fun i => InBox ![.inf true, fl 2] ![fl 8, .inf false] (farPts i))
      (T.searchBox ![.inf true, fl 2] ![fl 8, .inf false] []) := by
  have hnan : ∀ i j, farPts i j ≠ .nan := fun i j => by
    obtain ⟨x, h, e⟩ := farPts_fin i j
    rw [e]; simp
  obtain ⟨fuel, T, h⟩ := c83_build_partial (o := Ref.optsSliding (Fl float32) 2) (metricL1 (Fl float32) 2) hnan
    (by decide) rfl (fun m hm => by cases hm; decide) (n := 4) (by decide) 0 (fun i _ => farPts_fin i 0)
  refine ⟨fuel, T, h, c83_box_partial (h fuel le_rfl) hnan trivial (by decide) trivial _ _ ?_ ?_ []⟩
  · intro j; fin_cases j <;> decide +kernel
  · intro j; fin_cases j <;> decide +kernel

/-- What the box search returns. -/
example : ∃ T, KdTree.make (euclideanTag (Fl float32) 2) (metricL1 (Fl float32) 2) (Fl.num float32) farPts 4
      (Ref.optsSliding (Fl float32) 2) 10 = .ok T ∧
    T.searchBox ![.inf true, fl 2] ![fl 8, .inf false] [] = [2, 3] := by
  obtain ⟨T, h1, h2⟩ := Outcome.exists_of_check (x := KdTree.make (euclideanTag (Fl float32) 2)
    (metricL1 (Fl float32) 2) (Fl.num float32) farPts 4 (Ref.optsSliding (Fl float32) 2) 10)
    (p := fun T => decide (T.searchBox ![.inf true, fl 2] ![fl 8, .inf false] [] = [2, 3])) (by decide +kernel)
  exact ⟨T, h1, of_decide_eq_true h2⟩

end Pico.Props
