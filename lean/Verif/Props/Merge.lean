import Verif.Proof.Merge
import Verif.Props.Nearest
import Verif.Props.Box
import Verif.Props.Rounding

/-!
# C134: points that are divided over several trees

A user with too many points for one tree, or with points that arrive in portions, builds one tree for each part and
combines the answers.
-/

set_option linter.unusedSectionVars false

namespace Pico.Props

open Pico Spec

/-- A tree over some of the points: point `i` of the tree is point `idx[i]` of the whole set.  The options may differ from
part to part. -/
structure Part (α : Type) (d : Nat) (β : Type) where
  idx : List Nat
  opts : BuildOpts α d
  fuel : Nat
  tree : KdTree α d β

/-- The points with the numbers `idx`. -/
def pick {τ : Type} (pts : Nat → τ) (idx : List Nat) (i : Nat) : τ := pts (idx.getD i 0)

section Merge
variable {α : Type} [LinearOrder α] [Zero α] [Add α] [Sub α] {d : Nat} {β : Type}

/-- The tree of a part was built from its points. -/
def Part.Built (tag : SpaceTag α d β) (M : Metric α d) (N : Num α) (pts : Nat → Pt α d) (s : Part α d β) : Prop :=
  KdTree.make tag M N (pick pts s.idx) s.idx.length s.opts s.fuel = .ok s.tree

/-- The answers `f` from the parts combine to those of the tree `W` over all `n` points, which have the distances `dist`
from the query. -/
structure Combine (W : KdTree α d β) (parts : List (Part α d β)) (q : Pt α d) (n : Nat) (dist : Nat → α) : Prop where
  /-- The nearest neighbor is the nearest one of those in the parts. -/
  nn : ∀ (nn : Neighbor α) (nn' : Part α d β → Neighbor α),
    (∀ s ∈ parts, (W.searchNn q nn).distance ≤ (s.tree.searchNn q (nn' s)).distance) ∧
    ∃ s ∈ parts, (s.tree.searchNn q (nn' s)).distance = (W.searchNn q nn).distance
  /-- The `k` nearest neighbors are the first `k` of those in the parts, in the order of their distances. -/
  knn : ∀ (k : Nat) (prior : List (Neighbor α)) (prior' : Part α d β → List (Neighbor α)), 0 < k →
    ∃ (out : List (Neighbor α)) (f : Part α d β → List (Neighbor α)), W.searchKnn q k prior = .ok out ∧
      (∀ s ∈ parts, s.tree.searchKnn q k (prior' s) = .ok (f s)) ∧
      ∀ l : List (Neighbor α), l.Perm (parts.flatMap fun s => (f s).map (renumber s.idx)) →
        (l.Pairwise fun a b => a.distance ≤ b.distance) →
        IsKnn n k dist (l.take k) ∧ (l.take k).map Neighbor.distance = out.map Neighbor.distance
  /-- The neighbors within a radius are those in the parts. -/
  radius : ∀ (sorter : StdSort (Neighbor α)) (r : α) (prior : List (Neighbor α)) (sort : Bool)
    (sorter' : Part α d β → StdSort (Neighbor α)) (prior' : Part α d β → List (Neighbor α))
    (sort' : Part α d β → Bool), (W.searchRadius sorter q r prior sort).Perm
      (parts.flatMap fun s => (s.tree.searchRadius (sorter' s) q r (prior' s) (sort' s)).map (renumber s.idx))
  /-- More points bring no neighbor farther away: position by position, the `k` nearest ones of all points are at least
  as near as those of a part. -/
  more : ∀ s ∈ parts, ∀ (k : Nat) (prior prior' : List (Neighbor α)), 0 < k → ∃ out out',
    W.searchKnn q k prior = .ok out ∧ s.tree.searchKnn q k prior' = .ok out' ∧
      ∀ (i : Nat) (h' : i < out'.length), ∃ h : i < out.length, out[i].distance ≤ out'[i].distance

theorem part_lt {n : Nat} {parts : List (Part α d β)} (hp : IsPartition n (parts.map Part.idx)) {s : Part α d β}
    (hs : s ∈ parts) : ∀ i < s.idx.length, s.idx.getD i 0 < n := by
  intro i hi
  refine List.mem_range.1 (hp.once.subset (List.mem_flatten.2 ⟨s.idx, List.mem_map.2 ⟨s, hs, rfl⟩, ?_⟩))
  simp [List.getD_eq_getElem?_getD, hi]

theorem part_pos {n : Nat} {parts : List (Part α d β)} (hp : IsPartition n (parts.map Part.idx)) {s : Part α d β}
    (hs : s ∈ parts) : 0 < s.idx.length :=
  List.length_pos_of_ne_nil (hp.nonempty _ (List.mem_map.2 ⟨s, hs, rfl⟩))

variable {tag : SpaceTag α d β} {M : Metric α d} {N : Num α} {pts : Nat → Pt α d} {n : Nat} {o : BuildOpts α d}
  {fuel : Nat} {W : KdTree α d β} {parts : List (Part α d β)} {q : Pt α d}

theorem combine_of_exact (hp : IsPartition n (parts.map Part.idx)) (hW : KdTree.make tag M N pts n o fuel = .ok W)
    (hn : 0 < n) (hE : ExactAt W q) (hP : ∀ s ∈ parts, s.Built tag M N pts ∧ ExactAt s.tree q)
    (hbig : ∀ i < n, M.dist q (pts i) < N.big) : Combine W parts q n fun i => M.dist q (pts i) := by
  have hbig' : ∀ s ∈ parts, ∀ i < s.idx.length, M.dist q (pick pts s.idx i) < N.big := fun s hs i hi =>
    hbig _ (part_lt hp hs i hi)
  have hknn : ∀ k, 0 < k → ∀ s ∈ parts, ∀ prior, ∃ out, s.tree.searchKnn q k prior = .ok out ∧
      IsKnn s.idx.length k (fun i => M.dist q (pick pts s.idx i)) out := fun k hk s hs prior => by
    obtain ⟨out, h1, h2, -⟩ := knn_of_exact (hP s hs).1 (hP s hs).2 (part_pos hp hs) rfl (hbig' s hs) k hk prior
    exact ⟨out, h1, h2⟩
  refine ⟨fun nn nn' => ?_, fun k prior prior' hk => ?_, fun sorter r prior sort sorter' prior' sort' => ?_,
    fun s hs k prior prior' hk => ?_⟩
  · exact merge_nn (f := fun s : Part α d β => s.tree.searchNn q (nn' s)) (dist := fun i => M.dist q (pts i)) hp.once
      (fun s hs => nn_of_exact (hP s hs).1 (hP s hs).2 (part_pos hp hs) rfl (hbig' s hs) (nn' s))
      (nn_of_exact hW hE hn rfl hbig nn)
  · obtain ⟨out, h1, h2, h3⟩ := knn_of_exact hW hE hn rfl hbig k hk prior
    classical
    refine ⟨out, fun s => if h : s ∈ parts then (hknn k hk s h (prior' s)).choose else [], h1, fun s hs => ?_,
      fun l hl hs => ?_⟩
    · simp only [dif_pos hs]
      exact (hknn k hk s hs (prior' s)).choose_spec.1
    · have := merge_knn (dist := fun i => M.dist q (pts i)) hp.once (k := k) (fun s hs => by
        simp only [dif_pos hs]
        exact (hknn k hk s hs (prior' s)).choose_spec.2) hl hs
      exact ⟨this, by rw [this.map_distance, h3]⟩
  · exact merge_radius (dist := fun i => M.dist q (pts i)) hp.once
      (fun s hs => (radius_of_exact (hP s hs).1 (hP s hs).2 rfl (sorter' s) r (prior' s) (sort' s)).1)
      (radius_of_exact hW hE rfl sorter r prior sort).1
  · obtain ⟨out, h1, -, h3⟩ := knn_of_exact hW hE hn rfl hbig k hk prior
    obtain ⟨out', h1', h2'⟩ := hknn k hk s hs prior'
    refine ⟨out, out', h1, h1', fun i hi => ?_⟩
    have h3' := h2'.map_distance
    have hi2 : i < (out'.map Neighbor.distance).length := by simpa using hi
    rw [h3'] at hi2
    have hik : i < k ∧ i < s.idx.length := by
      rw [Spec.length_smallest] at hi2
      omega
    have hcount : ∀ x, (((List.range s.idx.length).map fun i => M.dist q (pick pts s.idx i)).mergeSort
          (fun a b => decide (a ≤ b))).countP (fun y => decide (y ≤ x)) ≤
        (((List.range n).map fun i => M.dist q (pts i)).mergeSort (fun a b => decide (a ≤ b))).countP
          (fun y => decide (y ≤ x)) := by
      intro x
      rw [(List.mergeSort_perm _ _).countP_eq, (List.mergeSort_perm _ _).countP_eq,
        ← (hp.once.map fun i => M.dist q (pts i)).countP_eq]
      have e : (List.range s.idx.length).map (fun i => M.dist q (pick pts s.idx i)) =
          s.idx.map fun i => M.dist q (pts i) := by
        conv_rhs => rw [← map_getD_range s.idx]
        rw [List.map_map]
        rfl
      rw [e, List.map_flatten, List.map_map, ← List.flatMap_def]
      exact countP_flatMap_le (fun y => decide (y ≤ x)) (fun s : Part α d β => s.idx.map fun i => M.dist q (pts i)) hs
    obtain ⟨hj, hle⟩ := sorted_le_of_count (mergeSort_sorted _) (mergeSort_sorted _) (hcount _) (i := i) (by simp [hik.2]) le_rfl
    have hj' : i < n := by simpa using hj
    have hio : i < out.length := by
      have := congrArg List.length h3
      rw [List.length_map, Spec.length_smallest] at this
      omega
    refine ⟨hio, ?_⟩
    have e1 : out[i].distance = (((List.range n).map fun i => M.dist q (pts i)).mergeSort
        (fun a b => decide (a ≤ b)))[i] := by
      rw [← List.getElem_map Neighbor.distance (h := by simpa using hio)]
      simp only [h3, Spec.smallest, List.getElem_take]
    have e2 : out'[i].distance = (((List.range s.idx.length).map fun i => M.dist q (pick pts s.idx i)).mergeSort
        (fun a b => decide (a ≤ b)))[i]'(by simp [hik.2]) := by
      rw [← List.getElem_map Neighbor.distance (h := by simpa using hi)]
      simp only [h3', Spec.smallest, List.getElem_take]
    rw [e1, e2]
    exact hle

end Merge

section Instances
variable {α : Type} [CommRing α] [LinearOrder α] [IsStrictOrderedRing α] {d : Nat} {M : Metric α d} {N : Num α}
  {pts : Nat → Pt α d} {n : Nat} {o : BuildOpts α d} {fuel : Nat} {q : Pt α d}

/-- C134 for the Euclidean metrics. -/
theorem c134_euclidean (hM : EuclideanAdditive M) {W : KdTree α d (Branch1 α d)} {parts : List (Part α d (Branch1 α d))}
    (hp : IsPartition n (parts.map Part.idx)) (hn : 0 < n)
    (hW : KdTree.make (euclideanTag α d) M N pts n o fuel = .ok W) (hR : Representable N pts n o)
    (hP : ∀ s ∈ parts, s.Built (euclideanTag α d) M N pts ∧ Representable N (pick pts s.idx) s.idx.length s.opts)
    (hbig : ∀ i < n, M.dist q (pts i) < N.big) : Combine W parts q n fun i => M.dist q (pts i) :=
  combine_of_exact hp hW hn (exactAt_euclidean hM hW hR hn q)
    (fun s hs => ⟨(hP s hs).1, exactAt_euclidean hM (hP s hs).1 (hP s hs).2 (part_pos hp hs) q⟩) hbig

/-- C134 for the topological metrics. -/
theorem c134_topological (hM : TopologicalAdditive M) {W : KdTree α d (Branch2 α d)}
    {parts : List (Part α d (Branch2 α d))} (hp : IsPartition n (parts.map Part.idx)) (hn : 0 < n)
    (hW : KdTree.make (topologicalTag α d) M N pts n o fuel = .ok W) (hR : Representable N pts n o)
    (hc : CircleOk M.space pts n o q)
    (hP : ∀ s ∈ parts, s.Built (topologicalTag α d) M N pts ∧ Representable N (pick pts s.idx) s.idx.length s.opts ∧
      CircleOk M.space (pick pts s.idx) s.idx.length s.opts q)
    (hbig : ∀ i < n, M.dist q (pts i) < N.big) : Combine W parts q n fun i => M.dist q (pts i) :=
  combine_of_exact hp hW hn (exactAt_topological hM hW hR hn q hc)
    (fun s hs => ⟨(hP s hs).1, exactAt_topological hM (hP s hs).1 (hP s hs).2.1 (part_pos hp hs) q (hP s hs).2.2⟩) hbig

end Instances

/-- C134 in one dimension with rounded arithmetic. -/
theorem c134_one_dim {α : Type} [LinearOrder α] [Zero α] [Add α] [Sub α] [Neg α] (L : RoundedLaws α) {M : Metric α 1}
    (hM : AxisMetric M) {N : Num α} {pts : Nat → Pt α 1} {n : Nat} {o : BuildOpts α 1} {fuel : Nat} {q : Pt α 1}
    {W : KdTree α 1 (Branch1 α 1)} {parts : List (Part α 1 (Branch1 α 1))}
    (hp : IsPartition n (parts.map Part.idx)) (hn : 0 < n)
    (hW : KdTree.make (euclideanTag α 1) M N pts n o fuel = .ok W) (hR : Representable N pts n o)
    (hP : ∀ s ∈ parts, s.Built (euclideanTag α 1) M N pts ∧ Representable N (pick pts s.idx) s.idx.length s.opts)
    (hbig : ∀ i < n, M.dist q (pts i) < N.big) : Combine W parts q n fun i => M.dist q (pts i) :=
  combine_of_exact hp hW hn (exactAt_one_dim L hM hW hR hn q)
    (fun s hs => ⟨(hP s hs).1, exactAt_one_dim L hM (hP s hs).1 (hP s hs).2 (part_pos hp hs) q⟩) hbig

section Boxes
variable {α : Type} [LinearOrder α] [Zero α] [One α] [Add α] [Sub α] [Neg α] {d : Nat} {M : Metric α d} {N : Num α}
  {pts : Nat → Pt α d} {n : Nat} {o : BuildOpts α d} {fuel : Nat}

/-- C134 for box searches: the points in a box are those found in the parts.  No arithmetic law is needed. -/
theorem c134_box {W : KdTree α d (Branch1 α d)} {parts : List (Part α d (Branch1 α d))}
    (hp : IsPartition n (parts.map Part.idx)) (hW : KdTree.make (euclideanTag α d) M N pts n o fuel = .ok W)
    (hb : BoundsContain pts n o.bounds)
    (hP : ∀ s ∈ parts, s.Built (euclideanTag α d) M N pts ∧
      BoundsContain (pick pts s.idx) s.idx.length s.opts.bounds)
    (mn mx : Pt α d) (prior : List Nat) (prior' : Part α d (Branch1 α d) → List Nat) :
    (W.searchBox mn mx prior).Perm
      (parts.flatMap fun s => (s.tree.searchBox mn mx (prior' s)).map fun i => s.idx.getD i 0) :=
  merge_selection (P := fun i => InBox mn mx (pts i)) hp.once
    (fun s hs => c08_box (hP s hs).1 (hP s hs).2 mn mx (prior' s)) (c08_box hW hb mn mx prior)

/-- C134 for box searches in spaces with circles. -/
theorem c134_box_topological {W : KdTree α d (Branch2 α d)} {parts : List (Part α d (Branch2 α d))}
    (hp : IsPartition n (parts.map Part.idx)) (hW : KdTree.make (topologicalTag α d) M N pts n o fuel = .ok W)
    (hb : BoundsContain pts n o.bounds)
    (hP : ∀ s ∈ parts, s.Built (topologicalTag α d) M N pts ∧
      BoundsContain (pick pts s.idx) s.idx.length s.opts.bounds)
    (mn mx : Pt α d) (prior : List Nat) (prior' : Part α d (Branch2 α d) → List Nat) :
    (W.searchBox mn mx prior).Perm
      (parts.flatMap fun s => (s.tree.searchBox mn mx (prior' s)).map fun i => s.idx.getD i 0) :=
  merge_selection (P := fun i => InTopBox (fun j => M.space j = .s1) mn mx (pts i)) hp.once
    (fun s hs => c09_box (hP s hs).1 (hP s hs).2 mn mx (prior' s)) (c09_box hW hb mn mx prior)

end Boxes

/-- With rounding in the plane the answers do not combine: on the points of `c46_false` the tree over point 0 alone finds
a nearer neighbor than the tree over all five points. -/
theorem c134_rounding : ∃ W T, KdTree.make (euclideanTag F32 2) (metricL2Sq F32 2) f32Num nearCircle 5
    (Ref.optsSliding F32 2) 10 = .ok W ∧
    KdTree.make (euclideanTag F32 2) (metricL2Sq F32 2) f32Num (pick nearCircle [0]) 1 (Ref.optsSliding F32 2) 10 = .ok T ∧
    (T.searchNn ![0, 0] ⟨0, 0⟩).distance < (W.searchNn ![0, 0] ⟨0, 0⟩).distance := by
  obtain ⟨W, h1, h2⟩ := Outcome.exists_of_check (x := KdTree.make (euclideanTag F32 2) (metricL2Sq F32 2)
    f32Num nearCircle 5 (Ref.optsSliding F32 2) 10)
    (p := fun W => (KdTree.make (euclideanTag F32 2) (metricL2Sq F32 2) f32Num (pick nearCircle [0]) 1
      (Ref.optsSliding F32 2) 10).check fun T =>
        decide ((T.searchNn ![0, 0] ⟨0, 0⟩).distance < (W.searchNn ![0, 0] ⟨0, 0⟩).distance)) (by decide +kernel)
  obtain ⟨T, h3, h4⟩ := Outcome.exists_of_check h2
  exact ⟨W, T, h1, h3, of_decide_eq_true h4⟩

/-! ## Examples -/

/-- Five points on a line, two of them equal. -/
def fivePts (i : Nat) : Pt Rat 1 := ![((i * i % 5 : Nat) : Rat)]

/-- Two parts, built with different rules; the whole set is built with the sliding midpoint rule. -/
example : ∃ (W : KdTree Rat 1 (Branch1 Rat 1)) (parts : List (Part Rat 1 (Branch1 Rat 1))),
    IsPartition 5 (parts.map Part.idx) ∧ parts.length = 2 ∧
    KdTree.make (euclideanTag Rat 1) (metricL1 Rat 1) Ref.ratNum fivePts 5 (Ref.optsSliding Rat 1) 10 = .ok W ∧
    Combine W parts ![2] 5 (fun i => (metricL1 Rat 1).dist ![2] (fivePts i)) := by
  obtain ⟨W, h1, _⟩ := Outcome.exists_of_check (x := KdTree.make (euclideanTag Rat 1) (metricL1 Rat 1) Ref.ratNum
    fivePts 5 (Ref.optsSliding Rat 1) 10) (p := fun _ => true) (by decide +kernel)
  obtain ⟨A, h2, _⟩ := Outcome.exists_of_check (x := KdTree.make (euclideanTag Rat 1) (metricL1 Rat 1) Ref.ratNum
    (pick fivePts [4, 0, 2]) 3 (Ref.optsSliding Rat 1) 10) (p := fun _ => true) (by decide +kernel)
  obtain ⟨B, h3, _⟩ := Outcome.exists_of_check (x := KdTree.make (euclideanTag Rat 1) (metricL1 Rat 1) Ref.ratNum
    (pick fivePts [3, 1]) 2 (Ref.optsMedian Rat 1) 10) (p := fun _ => true) (by decide +kernel)
  have hpart : IsPartition 5 [[4, 0, 2], [3, 1]] := ⟨by decide, by decide⟩
  have hr : ∀ i, InRange Ref.ratNum (fivePts i 0) := by
    intro i
    have h5 : i * i % 5 < 5 := Nat.mod_lt _ (by decide)
    have : ∀ m < 5, InRange Ref.ratNum ((m : Nat) : Rat) := by unfold InRange; decide +kernel
    exact this _ h5
  have hr' : ∀ i (j : Fin 1), InRange Ref.ratNum (fivePts i j) := fun i j => by
    rw [Subsingleton.elim j 0]
    exact hr i
  refine ⟨W, [⟨[4, 0, 2], Ref.optsSliding Rat 1, 10, A⟩, ⟨[3, 1], Ref.optsMedian Rat 1, 10, B⟩],
    hpart, rfl, h1, c134_euclidean additive_l1 hpart (by decide) h1
      ⟨by decide +kernel, fun i _ j => hr' i j, trivial, fun h => by simp [Ref.optsSliding] at h⟩ ?_ ?_⟩
  · intro s hs
    simp only [List.mem_cons, List.not_mem_nil, or_false] at hs
    rcases hs with rfl | rfl
    · exact ⟨h2, by decide +kernel, fun i _ j => hr' _ j, trivial, fun h => by simp [Ref.optsSliding] at h⟩
    · exact ⟨h3, by decide +kernel, fun i _ j => hr' _ j, trivial, fun h => by simp [Ref.optsMedian] at h⟩
  · decide +kernel

end Pico.Props
