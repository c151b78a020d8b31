import Verif.Proof.Shape
import Verif.Proof.Euclid
import Verif.Ref
import Mathlib.Tactic.FinCases

/-!
# C16 - C22: shape of the tree and termination of the construction

The theorems hold for both node kinds (`tag`), every metric, every scalar type with a linear order
and arbitrary (uninterpreted) arithmetic, unless a hypothesis says otherwise.
-/

set_option linter.unusedSectionVars false

namespace Pico.Props

open Pico Spec

section
variable {α : Type} [LinearOrder α] [Add α] [Sub α] {d : Nat} {β : Type}
  {tag : SpaceTag α d β} {M : Metric α d} {N : Num α} {pts : Nat → Pt α d} {n : Nat}
  {o : BuildOpts α d} {fuel : Nat} {T : KdTree α d β}

theorem created_of_make (h : KdTree.make tag M N pts n o fuel = .ok T) :
    ∃ box, Created (KdTree.cfg tag N pts o) 0 0 (List.range n) (boxFromBounds N pts n o.bounds)
      T.data.root T.data.indices box := by
  unfold KdTree.make at h
  cases hc : buildTree (KdTree.cfg tag N pts o) n o.bounds fuel with
  | ub => simp [hc, Outcome.bind] at h
  | oof => simp [hc, Outcome.bind] at h
  | ok D =>
    simp only [hc, Outcome.bind, Outcome.ok.injEq] at h
    subst h
    exact (buildTree_created hc).2

theorem make_of_created {t : Tree β} {seg' : List Nat} {box' : Box α d}
    (h : Created (KdTree.cfg tag N pts o) 0 0 (List.range n) (boxFromBounds N pts n o.bounds) t seg'
      box') :
    ∃ fuel T, ∀ f ≥ fuel, KdTree.make tag M N pts n o f = .ok T := by
  obtain ⟨fuel, hf⟩ := buildTree_of_created h
  refine ⟨fuel, ⟨tag, M, N, pts, n, ⟨seg', boxFromBounds N pts n o.bounds, t⟩⟩, fun f hge => ?_⟩
  unfold KdTree.make
  rw [hf f hge]
  rfl

/-! ## C16 -/

/-- C16: the leaves tile `[0, n)`, the index list is a permutation of `0..n-1`, and reading the
leaves from left to right gives the index list. -/
theorem c16_partition (h : KdTree.make tag M N pts n o fuel = .ok T) :
    T.data.indices.Perm (List.range n) ∧ Tiles 0 (ranges T.data.root) n ∧
      (ranges T.data.root).flatMap (fun r => slice T.data.indices r.1 r.2) = T.data.indices := by
  obtain ⟨box, hc⟩ := created_of_make h
  have ht := hc.tiles
  have hp := hc.perm
  rw [List.length_range, Nat.zero_add] at ht
  refine ⟨hp, ht, ?_⟩
  rw [tiles_flatMap ht]
  have hl := hp.length_eq
  rw [List.length_range] at hl
  simp [slice, ← hl]

/-- C16: every point index occurs in exactly one leaf, and there exactly once. -/
theorem c16_exactly_once (h : KdTree.make tag M N pts n o fuel = .ok T) (i : Nat) (hi : i < n) :
    ((ranges T.data.root).map fun r => (slice T.data.indices r.1 r.2).count i).sum = 1 := by
  obtain ⟨h1, _, h3⟩ := c16_partition h
  have := congrArg (List.count i) h3
  rw [List.count_flatMap, h1.count_eq i] at this
  have hc : (List.range n).count i = 1 :=
    List.count_eq_one_of_mem List.nodup_range (List.mem_range.2 hi)
  rw [hc] at this
  exact this

/-- If the narrowed stop value is not positive, no construction of a non-empty tree ever finishes. -/
theorem not_created_of_castIndex {C : BuildCfg α d β} {m : Nat} (hs : C.stop = .maxLeafSize m)
    (hm : castIndex C.indexBits m ≤ 0) {depth : Int} {o : Nat} {seg : List Nat} {box : Box α d}
    {t : Tree β} {seg' : List Nat} {box' : Box α d} (h : Created C depth o seg box t seg' box') :
    seg = [] := by
  induction h with
  | @leaf depth o seg box hl =>
    simp only [isLeaf, hs, decide_eq_true_eq] at hl
    have : (seg.length : Int) ≤ 0 := hl.trans hm
    exact List.eq_nil_of_length_eq_zero (by omega)
  | @branch depth o seg box sp l r segL segR boxL boxR hl hsp _ _ ih1 ih2 =>
    have h1 := (splitter_ok hsp).1.perm
    have h2 := List.take_append_drop sp.pos sp.seg
    rw [ih1, ih2] at h2
    simp only [List.append_nil] at h2
    rw [← h2] at h1
    exact List.nil_perm.1 h1

/-- Whatever the stop value is narrowed to, a finished construction of a non-empty tree never had to
split fewer than two points. -/
theorem stopOk_of_created {C : BuildCfg α d β} {depth : Int} {o : Nat} {seg : List Nat}
    {box : Box α d} {t : Tree β} {seg' : List Nat} {box' : Box α d}
    (h : Created C depth o seg box t seg' box') (hn : 0 < seg.length) : StopOk C := by
  unfold StopOk
  split
  · rename_i m hs
    by_contra hc
    have := not_created_of_castIndex hs (by omega) h
    rw [this] at hn
    simp at hn
  · trivial

/-! ## C17 -/

/-- What `leaf_ranges` does in general: the ranges of all leaves in order if none is empty,
undefined behaviour otherwise. -/
theorem c17_characterisation (T : KdTree α d β) :
    T.leafRanges =
      if ∀ r ∈ ranges T.data.root, r.1 ≠ r.2 then .ok (ranges T.data.root) else .ub := by
  unfold KdTree.leafRanges TreeData.leafRanges
  rw [insertLeafRange_eq]
  simp

/-- C17 (partial: median and sliding midpoint rule; missing: trees with an empty leaf, which the
midpoint rule produces and for which the call is undefined, see `c17_false`). -/
theorem c17_leaf_ranges_partial (h : KdTree.make tag M N pts n o fuel = .ok T) (hn : 0 < n)
    (hr : o.rule ≠ .midpoint) :
    ∃ rs, T.leafRanges = .ok rs ∧ rs = ranges T.data.root ∧ (∀ r ∈ rs, r.1 < r.2) ∧
      Tiles 0 rs n ∧ (rs.flatMap fun r => slice T.data.indices r.1 r.2).Perm (List.range n) := by
  obtain ⟨box, hc⟩ := created_of_make h
  have hne := hc.nonempty hr (stopOk_of_created hc (by simpa using hn)) (by simpa using hn)
  obtain ⟨h1, h2, h3⟩ := c16_partition h
  refine ⟨_, ?_, rfl, hne, h2, by rw [h3]; exact h1⟩
  rw [c17_characterisation, if_pos]
  intro r hr
  exact Nat.ne_of_lt (hne r hr)

/-! ## C18 -/

/-- C18 (partial: stop values that fit the signed index type; missing: larger ones, see
`c18_false`): no leaf holds more than `m` points. -/
theorem c18_leaf_size_partial (h : KdTree.make tag M N pts n o fuel = .ok T) {m : Nat}
    (hs : o.stop = .maxLeafSize m) (hm : m < 2 ^ (o.indexBits - 1)) :
    ∀ r ∈ ranges T.data.root, r.2 - r.1 ≤ m := by
  obtain ⟨box, hc⟩ := created_of_make h
  exact hc.leaf_size hs hm

/-- C18 (partial, as above): at most `m` points become a single leaf. -/
theorem c18_single_leaf_partial {m : Nat} (hs : o.stop = .maxLeafSize m)
    (hm : m < 2 ^ (o.indexBits - 1)) (hn : n ≤ m) (fuel : Nat) :
    ∃ T, KdTree.make tag M N pts n o (fuel + 1) = .ok T ∧ T.data.root = .leaf 0 n ∧
      T.data.indices = List.range n := by
  have hl : isLeaf (KdTree.cfg tag N pts o) 0 (List.range n).length = true := by
    have e : castIndex o.indexBits m = m := castIndex_eq hm
    simp only [isLeaf, KdTree.cfg, hs, e, List.length_range, decide_eq_true_eq]
    exact_mod_cast hn
  simp only [KdTree.make, buildTree, createNode, hl, if_true, Outcome.bind]
  exact ⟨_, rfl, by simp, rfl⟩

/-- C18 is false in general: `max_leaf_size_t(2^32)` (or any multiple, or `SIZE_MAX`) with a 32-bit
index type is narrowed to 0 (to -1); the construction then never finishes for any non-empty set,
while the property asks for leaves of at most `m` points (a single leaf here). -/
theorem c18_false (tag : SpaceTag α d β) (M : Metric α d) (N : Num α) (pts : Nat → Pt α d) (n : Nat)
    (o : BuildOpts α d) (hn : 0 < n)
    (hs : o.stop = .maxLeafSize (2 ^ 32) ∨ o.stop = .maxLeafSize (2 ^ 64 - 1)) (hw : o.indexBits = 32) :
    ∀ fuel T, KdTree.make tag M N pts n o fuel ≠ .ok T := by
  intro fuel T h
  obtain ⟨box, hc⟩ := created_of_make h
  have hnil : List.range n = [] := by
    rcases hs with hs | hs
    · refine not_created_of_castIndex (C := KdTree.cfg tag N pts o) hs ?_ hc
      show castIndex o.indexBits (2 ^ 32) ≤ 0
      rw [hw]; decide
    · refine not_created_of_castIndex (C := KdTree.cfg tag N pts o) hs ?_ hc
      show castIndex o.indexBits (2 ^ 64 - 1) ≤ 0
      rw [hw]; decide
  have := congrArg List.length hnil
  simp at this
  omega

/-! ## C19 -/

/-- C19 (partial: depth limits that fit the signed index type; missing: larger ones, see
`c19_false`): no leaf is deeper than `m`, and a leaf above depth `m` holds at most one point. -/
theorem c19_leaf_depth_partial (h : KdTree.make tag M N pts n o fuel = .ok T) {m : Nat}
    (hs : o.stop = .maxLeafDepth m) (hm : m < 2 ^ (o.indexBits - 1)) :
    ∀ x ∈ leaves T.data.root, x.1 ≤ m ∧ (x.1 < m → x.2.2 - x.2.1 ≤ 1) := by
  obtain ⟨box, hc⟩ := created_of_make h
  exact hc.leaf_depth hs hm rfl (Nat.zero_le _)

/-- C19 is false in general: `max_leaf_depth_t(2^32)` with a 32-bit index type is narrowed to 0, so
the root becomes a leaf with all points (`n ≥ 2` points in a leaf above depth `m`). -/
theorem c19_false (tag : SpaceTag α d β) (M : Metric α d) (N : Num α) (pts : Nat → Pt α d) (n : Nat)
    (o : BuildOpts α d) (hn : 2 ≤ n) (hs : o.stop = .maxLeafDepth (2 ^ 32)) (hw : o.indexBits = 32)
    (fuel : Nat) :
    ∃ T, KdTree.make tag M N pts n o (fuel + 1) = .ok T ∧ leaves T.data.root = [(0, 0, n)] ∧
      ¬ ∀ x ∈ leaves T.data.root, x.1 ≤ 2 ^ 32 ∧ (x.1 < 2 ^ 32 → x.2.2 - x.2.1 ≤ 1) := by
  have hl : isLeaf (KdTree.cfg tag N pts o) 0 (List.range n).length = true := by
    have e : castIndex o.indexBits (2 ^ 32) = 0 := by rw [hw]; decide
    simp only [isLeaf, KdTree.cfg, hs, e]
    simp
  have hk : ∃ T, KdTree.make tag M N pts n o (fuel + 1) = .ok T ∧ leaves T.data.root = [(0, 0, n)] := by
    simp only [KdTree.make, buildTree, createNode, hl, if_true, Outcome.bind]
    exact ⟨_, rfl, by simp [leaves, leavesFrom]⟩
  obtain ⟨T, h1, h2⟩ := hk
  refine ⟨T, h1, h2, fun hc => ?_⟩
  have := (hc (0, 0, n) (by rw [h2]; simp)).2 (by simp)
  simp only at this
  omega

/-! ## C20 -/

/-- C20: with the median and sliding midpoint rules no leaf is empty, there are at most `n` leaves
and at most `2 n - 1` nodes. -/
theorem c20_nonempty (h : KdTree.make tag M N pts n o fuel = .ok T) (hn : 0 < n)
    (hr : o.rule ≠ .midpoint) :
    (∀ r ∈ ranges T.data.root, r.1 < r.2) ∧ (leaves T.data.root).length ≤ n ∧
      nodes T.data.root ≤ 2 * n - 1 := by
  obtain ⟨box, hc⟩ := created_of_make h
  have hne := hc.nonempty hr (stopOk_of_created hc (by simpa using hn)) (by simpa using hn)
  obtain ⟨_, h2, _⟩ := c16_partition h
  have hlen := tiles_length h2 hne
  have hnod := nodes_eq T.data.root
  refine ⟨hne, ?_, by omega⟩
  simpa [ranges] using hlen

/-! ## C21 -/

/-- C21: with the median rule the sizes of siblings differ by at most one. -/
theorem c21_balanced (h : KdTree.make tag M N pts n o fuel = .ok T) (hr : o.rule = .median) :
    Balanced T.data.root ∧ size T.data.root = n := by
  obtain ⟨box, hc⟩ := created_of_make h
  exact ⟨hc.balanced hr, by rw [hc.size_eq, List.length_range]⟩

/-- C21 (partial: stop values that fit the signed index type; missing: larger ones, see `c21_false`):
with the median rule and `max_leaf_size_t(m)` the height is at most every `k` with `n ≤ m * 2 ^ k`. -/
theorem c21_height_partial (h : KdTree.make tag M N pts n o fuel = .ok T) (hr : o.rule = .median) {m : Nat}
    (hs : o.stop = .maxLeafSize m) (hm : m < 2 ^ (o.indexBits - 1)) (k : Nat)
    (hk : n ≤ m * 2 ^ k) : height T.data.root ≤ k := by
  obtain ⟨box, hc⟩ := created_of_make h
  exact hc.height_le hr hs hm k (by simpa using hk)

/-! ## C22 -/

/-- C22 (partial: stop values that fit the signed index type; missing: larger ones, for which
`c18_false` shows that the construction need not finish): the construction with the median or sliding midpoint rule finishes, without undefined
behaviour, for every non-empty point set.  `[a, b]` is an interval that contains all coordinates
and in which the scalar type computes differences above `lowest()` and midpoints inside the
interval (`SplitSafe`; see `splitSafe_field` and `splitSafe_int`). -/
theorem c22_terminates_partial (tag : SpaceTag α d β) (M : Metric α d) {a b : α} (hS : SplitSafe N a b)
    (hd : 0 < d) (hn : 0 < n) (hr : o.rule ≠ .midpoint)
    (hs : ∀ m, o.stop = .maxLeafSize m → 1 ≤ m ∧ m < 2 ^ (o.indexBits - 1))
    (hp : ∀ i < n, ∀ j, a ≤ pts i j ∧ pts i j ≤ b)
    (hN : N.low ≤ b ∧ a ≤ N.big)
    (hb : ∀ mn mx, o.bounds = .given mn mx →
      ∀ j, (a ≤ mn j ∧ mn j ≤ b) ∧ (a ≤ mx j ∧ mx j ≤ b)) :
    ∃ fuel T, ∀ f ≥ fuel, KdTree.make tag M N pts n o f = .ok T := by
  have hst : StopOk (KdTree.cfg tag N pts o) := stopOk_of hs
  obtain ⟨t, s, bx, hc⟩ := created_exists (C := KdTree.cfg tag N pts o) hS hd hr hst n 0 0
    (List.range n) (boxFromBounds N pts n o.bounds) (by simp) (boxFromBounds_within hn hN hp hb)
    (fun i hi => hp i (List.mem_range.1 hi))
  exact make_of_created hc

/-- C22 (partial, as above): the construction with any rule and a depth limit finishes without
undefined behaviour. -/
theorem c22_terminates_depth_partial (tag : SpaceTag α d β) (M : Metric α d) {a b : α}
    (hS : SplitSafe N a b) (hd : 0 < d) (hn : 0 < n) {m : Nat} (hs : o.stop = .maxLeafDepth m)
    (hm : m < 2 ^ (o.indexBits - 1)) (hp : ∀ i < n, ∀ j, a ≤ pts i j ∧ pts i j ≤ b)
    (hN : N.low ≤ b ∧ a ≤ N.big)
    (hb : ∀ mn mx, o.bounds = .given mn mx →
      ∀ j, (a ≤ mn j ∧ mn j ≤ b) ∧ (a ≤ mx j ∧ mx j ≤ b)) :
    ∃ fuel T, ∀ f ≥ fuel, KdTree.make tag M N pts n o f = .ok T := by
  obtain ⟨t, s, bx, hc⟩ := created_exists_depth (C := KdTree.cfg tag N pts o) hS hd hs hm m 0 0
    (List.range n) (boxFromBounds N pts n o.bounds) (by simp) (boxFromBounds_within hn hN hp hb)
    (fun i hi => hp i (List.mem_range.1 hi))
  exact make_of_created hc

end

/-! ## The hypothesis of C22 in exact arithmetic and for integers -/

/-- Exact arithmetic. -/
theorem splitSafe_field {α : Type} [Field α] [LinearOrder α] [IsStrictOrderedRing α] {N : Num α}
    (hmul : ∀ x, N.mulHalf x = x / 2) (hdiv : ∀ x, N.divTwo x = x / 2) {a b : α}
    (hlow : N.low < a - b) : SplitSafe N a b where
  low x y h1 h2 h3 h4 := by linarith
  mul x y h1 h2 h3 h4 := by rw [hmul]; constructor <;> linarith
  div x y h1 h2 h3 h4 := by rw [hdiv]; constructor <;> linarith

/-- Truncating integer division, `x * int(0.5) = 0`. -/
theorem splitSafe_int {a b : Int} (h : Ref.intNum.low < a - b) : SplitSafe Ref.intNum a b where
  low x y h1 h2 h3 h4 := by
    simp only [Ref.intNum] at h ⊢
    omega
  mul x y h1 h2 h3 h4 := by
    simp only [Ref.intNum]
    omega
  div x y h1 h2 h3 h4 := by
    simp only [Ref.intNum]
    have := Int.tdiv_eq_ediv (a := y - x) (b := 2)
    rw [this, Int.sign_eq_one_of_pos (by decide)]
    split_ifs <;> omega

/-! ## Examples -/

section Examples

/-- Three points with a gap: the midpoint rule leaves an empty cell. -/
def gapPts : Nat → Pt Rat 1
  | 0 => ![0]
  | 1 => ![1 / 10]
  | _ => ![1]

/-- C17 is false in general: a tree built with the midpoint rule (depth limit 3, three points) for
which `leaf_ranges` is undefined. -/
theorem c17_false :
    ∃ T, KdTree.make (euclideanTag Rat 1) (metricL1 Rat 1) Ref.ratNum gapPts 3
      (Ref.optsMidpoint Rat 1) 10 = .ok T ∧ T.leafRanges = .ub := by
  obtain ⟨T, h, hp⟩ := Outcome.exists_of_check
    (x := KdTree.make (euclideanTag Rat 1) (metricL1 Rat 1) Ref.ratNum gapPts 3
      (Ref.optsMidpoint Rat 1) 10)
    (p := fun T => decide (T.leafRanges = .ub)) (by decide +kernel)
  exact ⟨T, h, by simpa using hp⟩

/-- The hypotheses of C16 - C21 on a concrete tree: five points, median rule, leaves of at most two
points, with the resulting leaves. -/
example : ∃ T, KdTree.make (euclideanTag Int 2) (metricL1 Int 2) Ref.intNum Ref.pts5 5
    (Ref.optsMedian Int 2) 10 = .ok T ∧
    leaves T.data.root = [(1, 0, 2), (2, 2, 3), (2, 3, 5)] ∧ T.leafRanges = .ok [(0, 2), (2, 3), (3, 5)] ∧
    height T.data.root = 2 ∧ 5 ≤ 2 * 2 ^ 2 := by
  obtain ⟨T, h, hp⟩ := Outcome.exists_of_check
    (x := KdTree.make (euclideanTag Int 2) (metricL1 Int 2) Ref.intNum Ref.pts5 5
      (Ref.optsMedian Int 2) 10)
    (p := fun T => decide (leaves T.data.root = [(1, 0, 2), (2, 2, 3), (2, 3, 5)] ∧
      T.leafRanges = .ok [(0, 2), (2, 3), (3, 5)] ∧ height T.data.root = 2)) (by decide +kernel)
  have := of_decide_eq_true hp
  exact ⟨T, h, this.1, this.2.1, this.2.2, by decide⟩

/-- Midpoint rule with depth limit three: an empty leaf, and leaves above the limit with at most one
point. -/
example : ∃ T, KdTree.make (euclideanTag Rat 1) (metricL1 Rat 1) Ref.ratNum gapPts 3
      (Ref.optsMidpoint Rat 1) 10 = .ok T ∧
      leaves T.data.root = [(3, 0, 2), (3, 2, 2), (2, 2, 2), (1, 2, 3)] := by
  obtain ⟨T, h, hp⟩ := Outcome.exists_of_check
    (x := KdTree.make (euclideanTag Rat 1) (metricL1 Rat 1) Ref.ratNum gapPts 3
      (Ref.optsMidpoint Rat 1) 10)
    (p := fun T => decide (leaves T.data.root = [(3, 0, 2), (3, 2, 2), (2, 2, 2), (1, 2, 3)]))
    (by decide +kernel)
  exact ⟨T, h, of_decide_eq_true hp⟩

/-- C21 is false in general: `max_leaf_size_t(2^32 + 1)` is narrowed to 1, and five points, which
should become one leaf, are split twice or more. -/
theorem c21_false :
    ∃ T, KdTree.make (euclideanTag Int 2) (metricL1 Int 2) Ref.intNum Ref.pts5 5
      { Ref.optsMedian Int 2 with stop := .maxLeafSize (2 ^ 32 + 1) } 10 = .ok T ∧
      5 ≤ (2 ^ 32 + 1) * 2 ^ 0 ∧ ¬ height T.data.root ≤ 0 := by
  obtain ⟨T, h, hp⟩ := Outcome.exists_of_check
    (x := KdTree.make (euclideanTag Int 2) (metricL1 Int 2) Ref.intNum Ref.pts5 5
      { Ref.optsMedian Int 2 with stop := .maxLeafSize (2 ^ 32 + 1) } 10)
    (p := fun T => decide (¬ height T.data.root ≤ 0)) (by decide +kernel)
  exact ⟨T, h, by decide, of_decide_eq_true hp⟩

theorem pts5_within : ∀ i < 5, ∀ j, (0 : Int) ≤ Ref.pts5 i j ∧ Ref.pts5 i j ≤ 9 := by
  decide

/-- C22 on the five points: sliding midpoint with one point per leaf (two points coincide). -/
example : ∃ fuel T, ∀ f ≥ fuel, KdTree.make (euclideanTag Int 2) (metricL1 Int 2) Ref.intNum Ref.pts5
    5 (Ref.optsSliding Int 2) f = .ok T :=
  c22_terminates_partial _ _ (splitSafe_int (a := 0) (b := 9) (by decide)) (by decide) (by decide)
    (by simp [Ref.optsSliding])
    (by intro m hm; simp only [Ref.optsSliding, Stop.maxLeafSize.injEq] at hm; subst hm; decide)
    pts5_within (by decide) (by intro mn mx h; simp [Ref.optsSliding] at h)

/-- C22 with a depth limit: the midpoint rule on integers, where the computed midpoint is the lower
end of the cell. -/
example : ∃ fuel T, ∀ f ≥ fuel, KdTree.make (euclideanTag Int 2) (metricL1 Int 2) Ref.intNum Ref.pts5
    5 (Ref.optsMidpoint Int 2) f = .ok T :=
  c22_terminates_depth_partial _ _ (splitSafe_int (a := 0) (b := 9) (by decide)) (by decide) (by decide)
    (m := 3) rfl (by decide) pts5_within (by decide) (by intro mn mx h; simp [Ref.optsMidpoint] at h)

/-- C18, C19: the narrowing theorems apply to the default index type. -/
example : ∀ fuel T, KdTree.make (euclideanTag Int 2) (metricL1 Int 2) Ref.intNum Ref.pts5 5
    { Ref.optsSliding Int 2 with stop := .maxLeafSize (2 ^ 32) } fuel ≠ .ok T :=
  c18_false _ _ _ _ _ _ (by decide) (Or.inl rfl) rfl

end Examples

end Pico.Props
