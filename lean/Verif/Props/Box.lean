import Verif.Proof.BoxSearch
import Verif.Props.Builder
import Verif.Props.Nearest
import Verif.SpecBox

/-!
# C08, C09, C24, C25: box queries, independence of the construction, start bounds

The theorems about box queries need an order on the scalars only; the arithmetic used during the
construction is arbitrary.
-/

set_option linter.unusedSectionVars false

namespace Pico.Props

open Pico Spec

/-- The start bounds contain all points (nothing to ask of `bounds_from_space`). -/
def BoundsContain {α : Type} [LinearOrder α] {d : Nat} (pts : Nat → Pt α d) (n : Nat) :
    Bounds α d → Prop
  | .fromSpace => True
  | .given mn mx => ∀ i < n, ∀ j, (mn j ≤ pts i j ∨ mx j ≤ pts i j) ∧ (pts i j ≤ mn j ∨ pts i j ≤ mx j)

section
variable {α : Type} [LinearOrder α] [Zero α] [One α] [Add α] [Sub α] [Neg α] {d : Nat} {β : Type}
  {tag : SpaceTag α d β} {M : Metric α d} {N : Num α} {pts : Nat → Pt α d} {n : Nat}
  {o : BuildOpts α d} {fuel : Nat}

theorem boundsContain_mem (h : BoundsContain pts n o.bounds) :
    ∀ i < n, (boxFromBounds N pts n o.bounds).Mem (pts i) := by
  cases hb : o.bounds with
  | fromSpace => exact boxFromBounds_fromSpace_mem N pts n
  | given mn mx =>
    rw [hb] at h
    intro i hi j
    rw [boxFromBounds_given_min, boxFromBounds_given_max]
    obtain ⟨h1, h2⟩ := h i hi j
    constructor
    · rcases h1 with h1 | h1
      · exact (min_le_left _ _).trans ((min_le_right _ _).trans h1)
      · exact (min_le_right _ _).trans h1
    · rcases h2 with h2 | h2
      · exact h2.trans ((le_max_right _ _).trans (le_max_left _ _))
      · exact h2.trans (le_max_right _ _)

/-- With containing bounds, a box query returns the contained points in the order of the index list. -/
theorem searchBox_filter {T : KdTree α d β} (h : KdTree.make tag M N pts n o fuel = .ok T)
    (hb : BoundsContain pts n o.bounds) (mn mx : Pt α d)
    (hq : BoxQuery pts tag.setBranch tag.splitDim tag.leftMax tag.rightMin
      (fun i => tag.containsPt M ⟨mn, mx⟩ (pts i)) (tag.intersectsLeft ⟨mn, mx⟩)
      (tag.intersectsRight ⟨mn, mx⟩))
    (hbox : ∀ (b : Box α d) i, tag.containsBox M ⟨mn, mx⟩ b = true → b.Mem (pts i) →
      tag.containsPt M ⟨mn, mx⟩ (pts i) = true) (prior : List Nat) :
    T.searchBox mn mx prior = T.data.indices.filter fun i => tag.containsPt M ⟨mn, mx⟩ (pts i) := by
  obtain ⟨box, hc⟩ := created_of_make h
  have hroot : T.data.rootBox = boxFromBounds N pts n o.bounds :=
    (buildTree_created (KdTree.make_ok h).2.2.2.2.2).1
  have hm := boundsContain_mem (N := N) hb
  have hB : ∀ i ∈ T.data.indices, T.data.rootBox.Mem (pts i) := by
    intro i hi
    rw [hroot]
    exact hm i (List.mem_range.1 (hc.perm.subset hi))
  have := searchBox_exact (containsBox := tag.containsBox M ⟨mn, mx⟩) hq hbox hc.boxed [] [] rfl _ hB []
  obtain ⟨h1, h2, _, h4, _, _⟩ := KdTree.make_ok h
  simp only [List.nil_append, List.append_nil] at this
  simp only [KdTree.searchBox, KdTree.clearIdxs, h1, h2, h4]
  rw [this]

/-- With any bounds, a box query returns some of the points, each at most once, among them all
contained points. -/
theorem searchBox_superset {T : KdTree α d β} (h : KdTree.make tag M N pts n o fuel = .ok T)
    (mn mx : Pt α d)
    (hq : BoxQuery pts tag.setBranch tag.splitDim tag.leftMax tag.rightMin
      (fun i => tag.containsPt M ⟨mn, mx⟩ (pts i)) (tag.intersectsLeft ⟨mn, mx⟩)
      (tag.intersectsRight ⟨mn, mx⟩)) (prior : List Nat) :
    (T.searchBox mn mx prior).Nodup ∧ (∀ i ∈ T.searchBox mn mx prior, i < n) ∧
      ∀ i < n, tag.containsPt M ⟨mn, mx⟩ (pts i) = true → i ∈ T.searchBox mn mx prior := by
  obtain ⟨box, hc⟩ := created_of_make h
  obtain ⟨sel, h3, h4, h5⟩ := searchBox_complete (containsBox := tag.containsBox M ⟨mn, mx⟩) hq hc.boxed [] []
    rfl T.data.rootBox []
  obtain ⟨e1, e2, _, e4, _, _⟩ := KdTree.make_ok h
  have he : T.searchBox mn mx prior = sel := by
    simp only [List.nil_append, List.append_nil] at h3
    simp only [KdTree.searchBox, KdTree.clearIdxs, e1, e2, e4]
    rw [h3]
  rw [he]
  refine ⟨h4.nodup (hc.perm.nodup_iff.2 List.nodup_range), ?_, ?_⟩
  · intro i hi
    exact List.mem_range.1 (hc.perm.subset (h4.subset hi))
  · intro i hi hp
    exact h5 i (hc.perm.symm.subset (List.mem_range.2 hi)) hp

theorem isSelection_filter {l : List Nat} (hp : l.Perm (List.range n)) (p : Nat → Bool) {P : Nat → Prop}
    (hP : ∀ i, p i = true ↔ P i) : IsSelection n P (l.filter p) := by
  refine ⟨(hp.nodup_iff.2 List.nodup_range).filter _, fun i => ?_⟩
  rw [List.mem_filter, hp.mem_iff, List.mem_range, hP]

/-! ## C08 -/

theorem containsPt_iff_inBox (mn mx x : Pt α d) : (⟨mn, mx⟩ : Box α d).containsPt x = true ↔ InBox mn mx x :=
  Box.containsPt_iff _ _

/-- C08: box search with a Euclidean metric (any metric object with the Euclidean tag). -/
theorem c08_box {T : KdTree α d (Branch1 α d)}
    (h : KdTree.make (euclideanTag α d) M N pts n o fuel = .ok T)
    (hb : BoundsContain pts n o.bounds) (mn mx : Pt α d) (prior : List Nat) :
    IsSelection n (fun i => InBox mn mx (pts i)) (T.searchBox mn mx prior) := by
  obtain ⟨box, hc⟩ := created_of_make h
  rw [searchBox_filter h hb mn mx (boxQuery_euclidean M _ pts) (fun b i h1 h2 => Box.containsBox_mem h1 h2)
    prior]
  exact isSelection_filter hc.perm _ fun i => containsPt_iff_inBox _ _ _

/-- C08, order of the results: the one of the index list. -/
theorem c08_box_order {T : KdTree α d (Branch1 α d)}
    (h : KdTree.make (euclideanTag α d) M N pts n o fuel = .ok T)
    (hb : BoundsContain pts n o.bounds) (mn mx : Pt α d) (prior : List Nat) :
    (T.searchBox mn mx prior).Sublist T.data.indices := by
  rw [searchBox_filter h hb mn mx (boxQuery_euclidean M _ pts) (fun b i h1 h2 => Box.containsBox_mem h1 h2)
    prior]
  exact List.filter_sublist

/-- C08: an inverted box returns nothing. -/
theorem c08_box_inverted {T : KdTree α d (Branch1 α d)}
    (h : KdTree.make (euclideanTag α d) M N pts n o fuel = .ok T)
    (hb : BoundsContain pts n o.bounds) (mn mx : Pt α d) (prior : List Nat) (j : Fin d)
    (hj : mx j < mn j) : T.searchBox mn mx prior = [] := by
  rw [List.eq_nil_iff_forall_not_mem]
  intro i hi
  have := ((c08_box h hb mn mx prior).2 i).1 hi
  exact absurd ((this.2 j).1.trans (this.2 j).2) (not_le.2 hj)

/-! ## C09 -/

theorem topContainsPt_iff_inTopBox (space : Fin d → OneSpace) (mn mx x : Pt α d) :
    (⟨mn, mx⟩ : Box α d).topContainsPt space x = true ↔ InTopBox (fun j => space j = .s1) mn mx x := by
  rw [Box.topContainsPt_iff]
  refine forall_congr' fun j => ?_
  cases hs : space j with
  | r1 => simp [hs]
  | s1 =>
    simp only [hs, not_true_eq_false, false_implies, true_and, forall_const, OnArc]
    by_cases hl : mn j ≤ mx j
    · simp [hl, not_lt.2 hl]
    · have hl' := not_le.1 hl
      simp only [hl, if_false, false_implies, hl', forall_const, true_and, not_and_or, not_lt]
      exact or_comm

/-- C09: box search for every metric object with the topological tag; `M.space` tells the circle axes. -/
theorem c09_box {T : KdTree α d (Branch2 α d)}
    (h : KdTree.make (topologicalTag α d) M N pts n o fuel = .ok T)
    (hb : BoundsContain pts n o.bounds) (mn mx : Pt α d) (prior : List Nat) :
    IsSelection n (fun i => InTopBox (fun j => M.space j = .s1) mn mx (pts i))
      (T.searchBox mn mx prior) := by
  obtain ⟨box, hc⟩ := created_of_make h
  rw [searchBox_filter h hb mn mx (boxQuery_topological M _ pts)
    (fun b i h1 h2 => Box.topContainsBox_mem h1 h2) prior]
  exact isSelection_filter hc.perm _ fun i => topContainsPt_iff_inTopBox _ _ _ _

/-- C09 for `metric_so2`. -/
theorem c09_box_so2 {pts : Nat → Pt α 1} {o : BuildOpts α 1} {T : KdTree α 1 (Branch2 α 1)}
    (h : KdTree.make (topologicalTag α 1) (metricSO2 α) N pts n o fuel = .ok T)
    (hb : BoundsContain pts n o.bounds) (mn mx : Pt α 1) (prior : List Nat) :
    IsSelection n (fun i => OnArc (mn 0) (mx 0) (pts i 0)) (T.searchBox mn mx prior) := by
  have := c09_box h hb mn mx prior
  refine ⟨this.1, fun i => ?_⟩
  rw [this.2 i]
  refine and_congr_right fun _ => ?_
  constructor
  · intro h1; exact (h1 0).2 rfl
  · intro h1 j
    rw [Subsingleton.elim j 0]
    exact ⟨fun h2 => absurd rfl h2, fun _ => h1⟩

/-- C09 for `metric_se2_squared`. -/
theorem c09_box_se2 [Mul α] {pts : Nat → Pt α 3} {o : BuildOpts α 3} {T : KdTree α 3 (Branch2 α 3)}
    (h : KdTree.make (topologicalTag α 3) (metricSE2Sq α) N pts n o fuel = .ok T)
    (hb : BoundsContain pts n o.bounds) (mn mx : Pt α 3) (prior : List Nat) :
    IsSelection n (fun i => (mn 0 ≤ pts i 0 ∧ pts i 0 ≤ mx 0) ∧ (mn 1 ≤ pts i 1 ∧ pts i 1 ≤ mx 1) ∧
      OnArc (mn 2) (mx 2) (pts i 2)) (T.searchBox mn mx prior) := by
  have := c09_box h hb mn mx prior
  refine ⟨this.1, fun i => ?_⟩
  rw [this.2 i]
  refine and_congr_right fun _ => ?_
  constructor
  · intro h1
    exact ⟨(h1 0).1 (by simp [metricSE2Sq]), (h1 1).1 (by simp [metricSE2Sq]),
      (h1 2).2 (by simp [metricSE2Sq])⟩
  · rintro ⟨h0, h1, h2⟩ j
    fin_cases j
    · exact ⟨fun _ => h0, fun hc => absurd hc (by simp [metricSE2Sq])⟩
    · exact ⟨fun _ => h1, fun hc => absurd hc (by simp [metricSE2Sq])⟩
    · exact ⟨fun hc => absurd (by simp [metricSE2Sq]) hc, fun _ => h2⟩

/-! ## C25 -/

/-- C25 (partial: what is true of box search for all bounds): nothing is missed and nothing is
reported twice. -/
theorem c25_box_superset_partial {T : KdTree α d (Branch1 α d)}
    (h : KdTree.make (euclideanTag α d) M N pts n o fuel = .ok T) (mn mx : Pt α d) (prior : List Nat) :
    (T.searchBox mn mx prior).Nodup ∧ (∀ i ∈ T.searchBox mn mx prior, i < n) ∧
      ∀ i < n, InBox mn mx (pts i) → i ∈ T.searchBox mn mx prior := by
  obtain ⟨h1, h2, h3⟩ := searchBox_superset h mn mx (boxQuery_euclidean M _ pts) prior
  exact ⟨h1, h2, fun i hi hp => h3 i hi ((containsPt_iff_inBox _ _ _).2 hp)⟩

/-- As `c25_box_superset_partial`, for products of lines and circles. -/
theorem c25_box_superset_topological_partial {T : KdTree α d (Branch2 α d)}
    (h : KdTree.make (topologicalTag α d) M N pts n o fuel = .ok T) (mn mx : Pt α d) (prior : List Nat) :
    (T.searchBox mn mx prior).Nodup ∧ (∀ i ∈ T.searchBox mn mx prior, i < n) ∧
      ∀ i < n, InTopBox (fun j => M.space j = .s1) mn mx (pts i) → i ∈ T.searchBox mn mx prior := by
  obtain ⟨h1, h2, h3⟩ := searchBox_superset h mn mx (boxQuery_topological M _ pts) prior
  exact ⟨h1, h2, fun i hi hp => h3 i hi ((topContainsPt_iff_inTopBox _ _ _ _).2 hp)⟩

end

/-! ## C24, C25: the answers of two trees over the same points -/

section Two
variable {α : Type} [LinearOrder α]

theorem isNN_unique {n : Nat} {dist : Nat → α} {a b : Neighbor α} (ha : IsNN n dist a)
    (hb : IsNN n dist b) : a.distance = b.distance := by
  apply le_antisymm
  · rw [hb.distance]; exact ha.nearest _ hb.valid
  · rw [ha.distance]; exact hb.nearest _ ha.valid

variable {β : Type} {d : Nat} [Zero α] [Add α] [Sub α]

/-- Two trees over the same points whose traversals are exact for `q` agree. -/
theorem agree_of_exact {T₁ T₂ : KdTree α d β} {q : Pt α d} (h₁ : ExactAt T₁ q) (h₂ : ExactAt T₂ q)
    (hmet : T₁.metric = T₂.metric) (hpts : T₁.pts = T₂.pts) (hn : T₁.n = T₂.n) (hnum : T₁.num = T₂.num)
    (hpos : 0 < T₁.n) (hbig : ∀ i < T₁.n, T₁.metric.dist q (T₁.pts i) < T₁.num.big) :
    (∀ a b, (T₁.searchNn q a).distance = (T₂.searchNn q b).distance) ∧
    (∀ k, 0 < k → ∀ a b, ∃ out₁ out₂, T₁.searchKnn q k a = .ok out₁ ∧ T₂.searchKnn q k b = .ok out₂ ∧
      out₁.map Neighbor.distance = out₂.map Neighbor.distance) ∧
    (∀ (s₁ s₂ : StdSort (Neighbor α)) r a b m₁ m₂,
      (T₁.searchRadius s₁ q r a m₁).Perm (T₂.searchRadius s₂ q r b m₂)) := by
  have hpos₂ : 0 < T₂.n := hn ▸ hpos
  have hbig₂ : ∀ i < T₂.n, T₂.metric.dist q (T₂.pts i) < T₂.num.big := by
    rw [← hn, ← hmet, ← hpts, ← hnum]; exact hbig
  refine ⟨fun a b => ?_, fun k hk a b => ?_, fun s₁ s₂ r a b m₁ m₂ => ?_⟩
  · have e₁ := h₁.nn hpos hbig a
    have e₂ := h₂.nn hpos₂ hbig₂ b
    rw [← hn, ← hmet, ← hpts] at e₂
    exact isNN_unique e₁ e₂
  · obtain ⟨o₁, e₁, f₁⟩ := h₁.knn hpos hbig k hk a
    obtain ⟨o₂, e₂, f₂⟩ := h₂.knn hpos₂ hbig₂ k hk b
    refine ⟨o₁, o₂, e₁, e₂, ?_⟩
    rw [← hn, ← hmet, ← hpts] at f₂
    rw [f₁.map_distance, f₂.map_distance]
  · have e₁ := (h₁.radius s₁ r a m₁).1
    have e₂ := (h₂.radius s₂ r b m₂).1
    rw [← hn, ← hmet, ← hpts] at e₂
    exact e₁.trans e₂.symm

end Two

section Agree
variable {α : Type} [CommRing α] [LinearOrder α] [IsStrictOrderedRing α] {d : Nat} {M : Metric α d}
  {N : Num α} {pts : Nat → Pt α d} {n : Nat} {o₁ o₂ : BuildOpts α d} {f₁ f₂ : Nat}

/-- C24 (Euclidean metrics): two trees over the same points built with whatever options (rule, stop
condition, start bounds, standard library) give the same nearest distance, the same k nearest distances
and the same radius results. -/
theorem c24_euclidean (hM : EuclideanAdditive M) {T₁ T₂ : KdTree α d (Branch1 α d)}
    (h₁ : KdTree.make (euclideanTag α d) M N pts n o₁ f₁ = .ok T₁) (hR₁ : Representable N pts n o₁)
    (h₂ : KdTree.make (euclideanTag α d) M N pts n o₂ f₂ = .ok T₂) (hR₂ : Representable N pts n o₂)
    (hn : 0 < n) (q : Pt α d) (hbig : ∀ i < n, M.dist q (pts i) < N.big) :
    (∀ a b, (T₁.searchNn q a).distance = (T₂.searchNn q b).distance) ∧
    (∀ k, 0 < k → ∀ a b, ∃ out₁ out₂, T₁.searchKnn q k a = .ok out₁ ∧ T₂.searchKnn q k b = .ok out₂ ∧
      out₁.map Neighbor.distance = out₂.map Neighbor.distance) ∧
    (∀ (s₁ s₂ : StdSort (Neighbor α)) r a b m₁ m₂,
      (T₁.searchRadius s₁ q r a m₁).Perm (T₂.searchRadius s₂ q r b m₂)) := by
  have e₁ := exactAt_euclidean hM h₁ hR₁ hn q
  have e₂ := exactAt_euclidean hM h₂ hR₂ hn q
  obtain ⟨_, rfl, rfl, rfl, rfl, _⟩ := KdTree.make_ok h₁
  obtain ⟨_, a2, a3, a4, a5, _⟩ := KdTree.make_ok h₂
  exact agree_of_exact e₁ e₂ a2.symm a4.symm a5.symm a3.symm hn hbig

/-- C24 (products of lines and circles). -/
theorem c24_topological (hM : TopologicalAdditive M) {T₁ T₂ : KdTree α d (Branch2 α d)}
    (h₁ : KdTree.make (topologicalTag α d) M N pts n o₁ f₁ = .ok T₁) (hR₁ : Representable N pts n o₁)
    (h₂ : KdTree.make (topologicalTag α d) M N pts n o₂ f₂ = .ok T₂) (hR₂ : Representable N pts n o₂)
    (hn : 0 < n) (q : Pt α d) (hc₁ : CircleOk M.space pts n o₁ q) (hc₂ : CircleOk M.space pts n o₂ q)
    (hbig : ∀ i < n, M.dist q (pts i) < N.big) :
    (∀ a b, (T₁.searchNn q a).distance = (T₂.searchNn q b).distance) ∧
    (∀ k, 0 < k → ∀ a b, ∃ out₁ out₂, T₁.searchKnn q k a = .ok out₁ ∧ T₂.searchKnn q k b = .ok out₂ ∧
      out₁.map Neighbor.distance = out₂.map Neighbor.distance) ∧
    (∀ (s₁ s₂ : StdSort (Neighbor α)) r a b m₁ m₂,
      (T₁.searchRadius s₁ q r a m₁).Perm (T₂.searchRadius s₂ q r b m₂)) := by
  have e₁ := exactAt_topological hM h₁ hR₁ hn q hc₁
  have e₂ := exactAt_topological hM h₂ hR₂ hn q hc₂
  obtain ⟨_, rfl, rfl, rfl, rfl, _⟩ := KdTree.make_ok h₁
  obtain ⟨_, a2, a3, a4, a5, _⟩ := KdTree.make_ok h₂
  exact agree_of_exact e₁ e₂ a2.symm a4.symm a5.symm a3.symm hn hbig

end Agree

section AgreeBox
variable {α : Type} [LinearOrder α] [Zero α] [One α] [Add α] [Sub α] [Neg α] {d : Nat} {M : Metric α d}
  {N : Num α} {pts : Nat → Pt α d} {n : Nat} {o₁ o₂ : BuildOpts α d} {f₁ f₂ : Nat}

/-- C24 (box search, Euclidean): the same points are reported. -/
theorem c24_box {T₁ T₂ : KdTree α d (Branch1 α d)}
    (h₁ : KdTree.make (euclideanTag α d) M N pts n o₁ f₁ = .ok T₁)
    (h₂ : KdTree.make (euclideanTag α d) M N pts n o₂ f₂ = .ok T₂)
    (hb₁ : BoundsContain pts n o₁.bounds) (hb₂ : BoundsContain pts n o₂.bounds) (mn mx : Pt α d)
    (p₁ p₂ : List Nat) : (T₁.searchBox mn mx p₁).Perm (T₂.searchBox mn mx p₂) := by
  have a := c08_box h₁ hb₁ mn mx p₁
  have b := c08_box h₂ hb₂ mn mx p₂
  exact (List.perm_ext_iff_of_nodup a.1 b.1).2 fun i => (a.2 i).trans (b.2 i).symm

/-- C24 (box search, products of lines and circles). -/
theorem c24_box_topological {T₁ T₂ : KdTree α d (Branch2 α d)}
    (h₁ : KdTree.make (topologicalTag α d) M N pts n o₁ f₁ = .ok T₁)
    (h₂ : KdTree.make (topologicalTag α d) M N pts n o₂ f₂ = .ok T₂)
    (hb₁ : BoundsContain pts n o₁.bounds) (hb₂ : BoundsContain pts n o₂.bounds) (mn mx : Pt α d)
    (p₁ p₂ : List Nat) : (T₁.searchBox mn mx p₁).Perm (T₂.searchBox mn mx p₂) := by
  have a := c09_box h₁ hb₁ mn mx p₁
  have b := c09_box h₂ hb₂ mn mx p₂
  exact (List.perm_ext_iff_of_nodup a.1 b.1).2 fun i => (a.2 i).trans (b.2 i).symm

end AgreeBox

section C25
variable {α : Type} [CommRing α] [LinearOrder α] [IsStrictOrderedRing α] {d : Nat} {M : Metric α d}
  {N : Num α} {pts : Nat → Pt α d} {n : Nat} {o : BuildOpts α d} {f₁ f₂ : Nat}

/-- C25 (partial: nearest, k nearest and radius searches with Euclidean metrics; missing: box search
and topological metrics, for which it is false, see `c25_box_false` and `c25_so2_false`): start bounds,
whether or not they contain the points, do not change the answers. -/
theorem c25_nearest_partial (hM : EuclideanAdditive M) {T₁ T₂ : KdTree α d (Branch1 α d)}
    (b₁ b₂ : Bounds α d)
    (h₁ : KdTree.make (euclideanTag α d) M N pts n { o with bounds := b₁ } f₁ = .ok T₁)
    (h₂ : KdTree.make (euclideanTag α d) M N pts n { o with bounds := b₂ } f₂ = .ok T₂)
    (hR₁ : Representable N pts n { o with bounds := b₁ })
    (hR₂ : Representable N pts n { o with bounds := b₂ })
    (hn : 0 < n) (q : Pt α d) (hbig : ∀ i < n, M.dist q (pts i) < N.big) :
    (∀ a b, (T₁.searchNn q a).distance = (T₂.searchNn q b).distance) ∧
    (∀ k, 0 < k → ∀ a b, ∃ out₁ out₂, T₁.searchKnn q k a = .ok out₁ ∧ T₂.searchKnn q k b = .ok out₂ ∧
      out₁.map Neighbor.distance = out₂.map Neighbor.distance) ∧
    (∀ (s₁ s₂ : StdSort (Neighbor α)) r a b m₁ m₂,
      (T₁.searchRadius s₁ q r a m₁).Perm (T₂.searchRadius s₂ q r b m₂)) :=
  c24_euclidean hM h₁ hR₁ h₂ hR₂ hn q hbig

end C25

/-! ## Examples and counterexamples -/

section Examples

/-- Two points above the unit square. -/
def outside : Nat → Pt Rat 2
  | 0 => ![1 / 4, 5]
  | _ => ![3 / 4, 5]

/-- Start bounds: the unit square, which does not contain the points. -/
def optsUnit : BuildOpts Rat 2 := { Ref.optsSliding Rat 2 with bounds := .given ![0, 0] ![1, 1] }

/-- C25 is false for box search: with start bounds `[0, 1]²` the query `[0, 1/2] x [0, 1]` reports
point 0, which lies at `(1/4, 5)`; with the default bounds it reports nothing. -/
theorem c25_box_false :
    (∃ T, KdTree.make (euclideanTag Rat 2) (metricL1 Rat 2) Ref.ratNum outside 2 optsUnit 10 = .ok T ∧
      T.searchBox ![0, 0] ![1 / 2, 1] [] = [0]) ∧
    (∃ T, KdTree.make (euclideanTag Rat 2) (metricL1 Rat 2) Ref.ratNum outside 2 (Ref.optsSliding Rat 2)
      10 = .ok T ∧ T.searchBox ![0, 0] ![1 / 2, 1] [] = []) := by
  constructor
  · obtain ⟨T, h, hp⟩ := Outcome.exists_of_check
      (x := KdTree.make (euclideanTag Rat 2) (metricL1 Rat 2) Ref.ratNum outside 2 optsUnit 10)
      (p := fun T => decide (T.searchBox ![0, 0] ![1 / 2, 1] [] = [0])) (by decide +kernel)
    exact ⟨T, h, of_decide_eq_true hp⟩
  · obtain ⟨T, h, hp⟩ := Outcome.exists_of_check
      (x := KdTree.make (euclideanTag Rat 2) (metricL1 Rat 2) Ref.ratNum outside 2 (Ref.optsSliding Rat 2)
        10)
      (p := fun T => decide (T.searchBox ![0, 0] ![1 / 2, 1] [] = [])) (by decide +kernel)
    exact ⟨T, h, of_decide_eq_true hp⟩

/-- C08 on the five points: a non-trivial answer, with previous contents. -/
example : ∃ T, KdTree.make (euclideanTag Int 2) (metricL1 Int 2) Ref.intNum Ref.pts5 5
    (Ref.optsSliding Int 2) 10 = .ok T ∧ T.searchBox ![3, 1] ![9, 7] [8, 8] = [2, 3, 1, 4] ∧
    BoundsContain Ref.pts5 5 (Ref.optsSliding Int 2).bounds := by
  obtain ⟨T, h, hp⟩ := Outcome.exists_of_check
    (x := KdTree.make (euclideanTag Int 2) (metricL1 Int 2) Ref.intNum Ref.pts5 5
      (Ref.optsSliding Int 2) 10)
    (p := fun T => decide (T.searchBox ![3, 1] ![9, 7] [8, 8] = [2, 3, 1, 4])) (by decide +kernel)
  exact ⟨T, h, of_decide_eq_true hp, trivial⟩

/-- C09 with a box that wraps around on the circle axis. -/
example : ∃ T, KdTree.make (topologicalTag Rat 3) (metricSE2Sq Rat) Ref.ratNum Ref.poses4 4
      (Ref.optsMidpoint Rat 3) 10 = .ok T ∧ T.searchBox ![0, 0, 4 / 5] ![1, 1, 1 / 5] [] = [0, 1] := by
  obtain ⟨T, h1, h2⟩ := Outcome.exists_of_check (x := KdTree.make (topologicalTag Rat 3)
    (metricSE2Sq Rat) Ref.ratNum Ref.poses4 4 (Ref.optsMidpoint Rat 3) 10)
    (p := fun T => decide (T.searchBox ![0, 0, 4 / 5] ![1, 1, 1 / 5] [] = [0, 1])) (by decide +kernel)
  exact ⟨T, h1, of_decide_eq_true h2⟩

/-- Three points on the circle. -/
def circle3 : Nat → Pt Rat 1
  | 0 => ![1 / 10]
  | 1 => ![1 / 5]
  | _ => ![3 / 5]

/-- Midpoint rule with start bounds that contain the points but leave `[0, 1]`. -/
def optsWide : BuildOpts Rat 1 :=
  { Ref.optsMidpoint Rat 1 with bounds := .given ![-5] ![1], stop := .maxLeafDepth 5 }

/-- C25 is false for `metric_so2`: with the midpoint rule and start bounds `[-5, 1]` the nearest neighbor
of `9/10` is reported at distance `3/10` although point 0 is at distance `1/5`, which the default bounds
find. -/
theorem c25_so2_false :
    (∃ T, KdTree.make (topologicalTag Rat 1) (metricSO2 Rat) Ref.ratNum circle3 3 optsWide 10 = .ok T ∧
      T.searchNn ![9 / 10] ⟨0, 0⟩ = ⟨2, 3 / 10⟩) ∧
    (∃ T, KdTree.make (topologicalTag Rat 1) (metricSO2 Rat) Ref.ratNum circle3 3
      { optsWide with bounds := .fromSpace } 10 = .ok T ∧
      T.searchNn ![9 / 10] ⟨0, 0⟩ = ⟨0, 1 / 5⟩) := by
  constructor
  · obtain ⟨T, h, hp⟩ := Outcome.exists_of_check
      (x := KdTree.make (topologicalTag Rat 1) (metricSO2 Rat) Ref.ratNum circle3 3 optsWide 10)
      (p := fun T => decide (T.searchNn ![9 / 10] ⟨0, 0⟩ = ⟨2, 3 / 10⟩)) (by decide +kernel)
    exact ⟨T, h, of_decide_eq_true hp⟩
  · obtain ⟨T, h, hp⟩ := Outcome.exists_of_check
      (x := KdTree.make (topologicalTag Rat 1) (metricSO2 Rat) Ref.ratNum circle3 3
        { optsWide with bounds := .fromSpace } 10)
      (p := fun T => decide (T.searchNn ![9 / 10] ⟨0, 0⟩ = ⟨0, 1 / 5⟩)) (by decide +kernel)
    exact ⟨T, h, of_decide_eq_true hp⟩

/-- C24, C25: two trees over the five points, built with different rules and start bounds that do not
contain the points, and equal answers. -/
example : ∃ T₁ T₂, KdTree.make (euclideanTag Int 2) (metricL1 Int 2) Ref.intNum Ref.pts5 5
      (Ref.optsSliding Int 2) 10 = .ok T₁ ∧
    KdTree.make (euclideanTag Int 2) (metricL1 Int 2) Ref.intNum Ref.pts5 5
      { Ref.optsSliding Int 2 with rule := .median, bounds := .given ![0, 0] ![1, 1] } 10 = .ok T₂ ∧
    T₁.searchKnn ![5, 5] 2 [] = .ok [⟨3, 4⟩, ⟨2, 4⟩] ∧
    T₂.searchKnn ![5, 5] 2 [] = .ok [⟨3, 4⟩, ⟨2, 4⟩] := by
  obtain ⟨T₁, h₁, hp₁⟩ := Outcome.exists_of_check (x := KdTree.make (euclideanTag Int 2) (metricL1 Int 2)
    Ref.intNum Ref.pts5 5 (Ref.optsSliding Int 2) 10)
    (p := fun T => T.searchKnn ![5, 5] 2 [] = .ok [⟨3, 4⟩, ⟨2, 4⟩]) (by decide +kernel)
  obtain ⟨T₂, h₂, hp₂⟩ := Outcome.exists_of_check (x := KdTree.make (euclideanTag Int 2) (metricL1 Int 2)
    Ref.intNum Ref.pts5 5 { Ref.optsSliding Int 2 with rule := .median, bounds := .given ![0, 0] ![1, 1] } 10)
    (p := fun T => T.searchKnn ![5, 5] 2 [] = .ok [⟨3, 4⟩, ⟨2, 4⟩]) (by decide +kernel)
  exact ⟨T₁, T₂, h₁, h₂, by simpa using hp₁, by simpa using hp₂⟩

end Examples

end Pico.Props
