import Verif.Proof.BoxRead
import Verif.Props.Box

/-!
# C104: which points a box search reads

Whether a search reads the coordinates of a point is told from its answers: the same tree is searched with other
coordinates `pts'` in the place of those it was built from.
-/

set_option linter.unusedSectionVars false

namespace Pico.Props

open Pico Spec

section
variable {α : Type} [LinearOrder α] [Zero α] [One α] [Add α] [Sub α] [Neg α] {d : Nat} {β : Type}
  {tag : SpaceTag α d β} {M : Metric α d} {N : Num α} {pts : Nat → Pt α d} {n : Nat}
  {o : BuildOpts α d} {fuel : Nat}

open Classical in
/-- The search with other coordinates, for both kinds of metrics. -/
theorem searchBox_other {T : KdTree α d β} (h : KdTree.make tag M N pts n o fuel = .ok T)
    (hb : BoundsContain pts n o.bounds) (mn mx : Pt α d)
    (hq : BoxQuery pts tag.setBranch tag.splitDim tag.leftMax tag.rightMin
      (fun i => tag.containsPt M ⟨mn, mx⟩ (pts i)) (tag.intersectsLeft ⟨mn, mx⟩)
      (tag.intersectsRight ⟨mn, mx⟩))
    (hbox : ∀ (b : Box α d) i, tag.containsBox M ⟨mn, mx⟩ b = true → b.Mem (pts i) →
      tag.containsPt M ⟨mn, mx⟩ (pts i) = true) (prior : List Nat) (pts' : Nat → Pt α d) :
    ({ T with pts := pts' } : KdTree α d β).searchBox mn mx prior = T.data.indices.filter fun i =>
      if BoxReach tag.splitDim tag.leftMax tag.rightMin (tag.containsBox M ⟨mn, mx⟩) (tag.intersectsLeft ⟨mn, mx⟩)
        (tag.intersectsRight ⟨mn, mx⟩) T.data.indices T.data.root T.data.rootBox i
      then tag.containsPt M ⟨mn, mx⟩ (pts' i) else tag.containsPt M ⟨mn, mx⟩ (pts i) := by
  obtain ⟨box, hc⟩ := created_of_make h
  have hroot : T.data.rootBox = boxFromBounds N pts n o.bounds :=
    (buildTree_created (KdTree.make_ok h).2.2.2.2.2).1
  have hm := boundsContain_mem (N := N) hb
  have hB : ∀ i ∈ T.data.indices, T.data.rootBox.Mem (pts i) := by
    intro i hi
    rw [hroot]
    exact hm i (List.mem_range.1 (hc.perm.subset hi))
  have := searchBox_reach (containsBox := tag.containsBox M ⟨mn, mx⟩) hq hbox
    (fun i => tag.containsPt M ⟨mn, mx⟩ (pts' i)) hc.boxed [] [] rfl (hc.perm.nodup_iff.2 List.nodup_range) _ hB []
  obtain ⟨h1, h2, _, h4, _, _⟩ := KdTree.make_ok h
  simp only [List.nil_append, List.append_nil] at this
  simp only [KdTree.searchBox, KdTree.clearIdxs, h1, h2]
  rw [this]

/-! ## C104 -/

/-- The leaf of point `i` is on the border of the query box: its tight cell has a place inside, and the part of it in
the box of the tree has a place outside. -/
def OnBorder (T : KdTree α d (Branch1 α d)) (mn mx : Pt α d) (i : Nat) : Prop :=
  (∃ y, tightCell T.data.indices T.data.root i y ∧ InBox mn mx y) ∧
  ∃ z, tightCell T.data.indices T.data.root i z ∧ InBox T.data.rootBox.min T.data.rootBox.max z ∧ ¬ InBox mn mx z

theorem box_in_root {T : KdTree α d β} (h : KdTree.make tag M N pts n o fuel = .ok T) (hR : Representable N pts n o)
    (hn : 0 < n) (hb : BoundsContain pts n o.bounds) :
    ∃ box, Boxed pts tag.setBranch 0 T.data.root T.data.indices box ∧
      ∀ j, T.data.rootBox.min j ≤ box.min j ∧ box.max j ≤ T.data.rootBox.max j := by
  obtain ⟨box, hc⟩ := created_of_make h
  have hroot : T.data.rootBox = boxFromBounds N pts n o.bounds :=
    (buildTree_created (KdTree.make_ok h).2.2.2.2.2).1
  have hm := boundsContain_mem (N := N) hb
  have hcell := boxFromBounds_cellOk (bounds := o.bounds) hn hR.points hR.bounds
  refine ⟨box, hc.boxed, fun j => ?_⟩
  rw [hroot]
  constructor
  · exact hc.le_min hR.mid j _ (hcell j).2.1.2 (fun i hi => (hm i (List.mem_range.1 hi) j).1)
      fun _ => ⟨hcell, le_rfl⟩
  · exact hc.max_le hR.mid j _ (hcell j).2.2.1 (fun i hi => (hm i (List.mem_range.1 hi) j).2)
      fun _ => ⟨hcell, le_rfl⟩

open Classical in
/-- C104: a tree with more than one leaf is searched with any other coordinates `pts'`. The points whose leaf is on the
border of the query box are judged by `pts'`, all others as if nothing had changed. So the coordinates of exactly the
points in leaves on the border are read. -/
theorem c104 {T : KdTree α d (Branch1 α d)} (h : KdTree.make (euclideanTag α d) M N pts n o fuel = .ok T)
    (hR : Representable N pts n o) (hn : 0 < n) (hb : BoundsContain pts n o.bounds) (mn mx : Pt α d)
    (hq : ∀ j, mn j ≤ mx j) (hl : ∀ b e, T.data.root ≠ .leaf b e) (prior : List Nat) (pts' : Nat → Pt α d) :
    ({ T with pts := pts' } : KdTree α d _).searchBox mn mx prior =
      T.data.indices.filter fun i => InBox mn mx (if OnBorder T mn mx i then pts' i else pts i) := by
  rw [searchBox_other h hb mn mx (boxQuery_euclidean M _ pts) (fun b i h1 h2 => Box.containsBox_mem h1 h2) prior pts']
  obtain ⟨box, hB, hsub⟩ := box_in_root h hR hn hb
  obtain ⟨box', hc⟩ := created_of_make h
  refine List.filter_congr fun i hi => ?_
  have key : BoxReach1 M ⟨mn, mx⟩ T.data.indices T.data.root T.data.rootBox i ↔ OnBorder T mn mx i := by
    have e : T.data.indices = [] ++ (T.data.indices ++ []) := by simp
    have hnd : T.data.indices.Nodup := hc.perm.nodup_iff.2 List.nodup_range
    constructor
    · intro hr
      rw [e] at hr
      refine ⟨⟨clampTo ⟨mn, mx⟩ (pts i), ?_, fun j => ⟨le_max_left _ _, max_le (hq j) (min_le_left _ _)⟩⟩, ?_⟩
      · rw [e]
        exact boxReach_inside hB [] [] rfl hnd _ hi hr
      · rw [e]
        exact boxReach_outside hB [] [] rfl hnd _ hsub hi (Or.inr hl) hr
    · rintro ⟨⟨y, hy1, hy2⟩, z, hz1, hz2, hz3⟩
      rw [e] at hy1 hz1 ⊢
      exact boxReach_border hB [] [] rfl hnd _ hi hy1 hy2 hz1 hz2 hz3
  have key := propext key
  by_cases hob : OnBorder T mn mx i
  · have := key ▸ hob
    rw [if_pos this, if_pos hob, Bool.eq_iff_iff, decide_eq_true_eq]
    exact containsPt_iff_inBox _ _ _
  · have := key ▸ hob
    rw [if_neg this, if_neg hob, Bool.eq_iff_iff, decide_eq_true_eq]
    exact containsPt_iff_inBox _ _ _

open Classical in
/-- A tree of a single leaf: all points are read. -/
theorem c104_leaf {T : KdTree α d (Branch1 α d)} (h : KdTree.make (euclideanTag α d) M N pts n o fuel = .ok T)
    (hb : BoundsContain pts n o.bounds) (mn mx : Pt α d) {b e : Nat} (hl : T.data.root = .leaf b e) (prior : List Nat)
    (pts' : Nat → Pt α d) :
    ({ T with pts := pts' } : KdTree α d _).searchBox mn mx prior =
      T.data.indices.filter fun i => InBox mn mx (pts' i) := by
  rw [searchBox_other h hb mn mx (boxQuery_euclidean M _ pts) (fun b i h1 h2 => Box.containsBox_mem h1 h2) prior pts']
  refine List.filter_congr fun i hi => ?_
  rw [if_pos (by rw [hl]; trivial), Bool.eq_iff_iff, decide_eq_true_eq]
  exact containsPt_iff_inBox _ _ _

end

/-! ## Examples -/

/-- Five points in the plane, one per leaf: the hypotheses of `c104` hold. The search for the box from (0, 0) to (4, 4)
reads points 1 and 4; point 0 is reported and points 2 and 3 are left out whatever their coordinates. -/
example : ∃ T, KdTree.make (euclideanTag Int 2) (metricL1 Int 2) Ref.intNum Ref.pts5 5 (Ref.optsSliding Int 2) 10 = .ok T ∧
    ((∀ b e, T.data.root ≠ .leaf b e) ∧ Representable Ref.intNum Ref.pts5 5 (Ref.optsSliding Int 2) ∧
      BoundsContain Ref.pts5 5 (Ref.optsSliding Int 2).bounds) ∧
    T.searchBox ![0, 0] ![4, 4] [] = [0, 1] ∧
    ({ T with pts := fun _ => ![3, 3] } : KdTree Int 2 _).searchBox ![0, 0] ![4, 4] [] = [0, 1, 4] ∧
    ({ T with pts := fun _ => ![300, 3] } : KdTree Int 2 _).searchBox ![0, 0] ![4, 4] [] = [0] := by
  obtain ⟨T, h, hp⟩ := Outcome.exists_of_check
    (x := KdTree.make (euclideanTag Int 2) (metricL1 Int 2) Ref.intNum Ref.pts5 5 (Ref.optsSliding Int 2) 10)
    (p := fun T => decide ((match T.data.root with | .leaf _ _ => false | .branch _ _ _ => true) = true ∧
      T.searchBox ![0, 0] ![4, 4] [] = [0, 1] ∧
      ({ T with pts := fun _ => ![3, 3] } : KdTree Int 2 _).searchBox ![0, 0] ![4, 4] [] = [0, 1, 4] ∧
      ({ T with pts := fun _ => ![300, 3] } : KdTree Int 2 _).searchBox ![0, 0] ![4, 4] [] = [0])) (by decide +kernel)
  obtain ⟨h1, h2⟩ := of_decide_eq_true hp
  exact ⟨T, h, ⟨fun b e he => (by rw [he] at h1; cases h1),
    ⟨by decide +kernel, by unfold InRange; decide +kernel, trivial, by simp [Ref.optsSliding]⟩, trivial⟩, h2⟩

end Pico.Props
