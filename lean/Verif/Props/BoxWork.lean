import Verif.Props.BoxRead
import Verif.Props.Builder

/-!
# C105: how many points a box search reads

The comment on `search_box` (kd_tree_search.hpp:231-236) promises `O(n^(1-1/dimension) + k)`.
-/

set_option linter.unusedSectionVars false

namespace Pico.Props

open Pico Spec

section
variable {α : Type} [LinearOrder α] [Zero α] [One α] [Add α] [Sub α] [Neg α] {d : Nat} {β : Type}
  {tag : SpaceTag α d β} {M : Metric α d} {N : Num α} {pts : Nat → Pt α d} {n : Nat}
  {o : BuildOpts α d} {fuel : Nat}

/-- The search for the box reads point `i`: whether `i` is reported depends on the coordinates that are looked up during
the search. -/
def BoxReads (T : KdTree α d β) (mn mx : Pt α d) (i : Nat) : Prop :=
  ∃ pts', ¬ (i ∈ ({ T with pts := pts' } : KdTree α d β).searchBox mn mx [] ↔ i ∈ T.searchBox mn mx [])

/-- Points are read only in leaves on the border. -/
theorem reads_border {T : KdTree α d (Branch1 α d)} (h : KdTree.make (euclideanTag α d) M N pts n o fuel = .ok T)
    (hR : Representable N pts n o) (hn : 0 < n) (hb : BoundsContain pts n o.bounds) (mn mx : Pt α d)
    (hq : ∀ j, mn j ≤ mx j) (hl : ∀ b e, T.data.root ≠ .leaf b e) {i : Nat} (hi : BoxReads T mn mx i) :
    OnBorder T mn mx i := by
  classical
  obtain ⟨pts', hp⟩ := hi
  by_contra hno
  apply hp
  have h4 : T.pts = pts := (KdTree.make_ok h).2.2.2.1
  have e : T.searchBox mn mx [] = ({ T with pts := pts } : KdTree α d _).searchBox mn mx [] := by rw [← h4]
  rw [e, c104 h hR hn hb mn mx hq hl, c104 h hR hn hb mn mx hq hl, List.mem_filter, List.mem_filter]
  simp only [hno, if_false]

/-- Two leaves whose tight cells overlap on the line are one leaf. -/
theorem same_leaf {pts : Nat → Pt α 1} {o : Nat} {t : Tree (Branch1 α 1)} {seg : List Nat} {box : Box α 1}
    (h : Built pts (euclideanTag α 1).setBranch o t seg box) (pre post : List Nat) (ho : o = pre.length)
    (hnd : seg.Nodup) {i k : Nat} (hi : i ∈ seg) (hk : k ∈ seg) {y z y' z' : Pt α 1}
    (hy : tightCell (pre ++ (seg ++ post)) t i y) (hz : tightCell (pre ++ (seg ++ post)) t k z)
    (hy' : tightCell (pre ++ (seg ++ post)) t k y') (hz' : tightCell (pre ++ (seg ++ post)) t i z')
    (h1 : z 0 < y 0) (h2 : z' 0 < y' 0) :
    ∀ r ∈ ranges t, k ∈ slice (pre ++ (seg ++ post)) r.1 r.2 → i ∈ slice (pre ++ (seg ++ post)) r.1 r.2 := by
  induction h generalizing pre post with
  | @leaf o seg box h =>
    subst ho
    intro r hr _
    rw [ranges_leaf] at hr
    obtain rfl := List.mem_singleton.1 hr
    rw [slice_append]
    exact hi
  | @branch o l r segL segR boxL boxR dim hl hr hlr ih1 ih2 =>
    have e2 : pre ++ ((segL ++ segR) ++ post) = (pre ++ segL) ++ (segR ++ post) := by simp
    have heL : l.elems (pre ++ ((segL ++ segR) ++ post)) = segL := by
      rw [List.append_assoc]; exact hl.elems_eq pre _ ho
    have heR : r.elems (pre ++ ((segL ++ segR) ++ post)) = segR := by
      rw [e2]; exact hr.elems_eq _ _ (by simp [ho])
    obtain ⟨hndL, hndR, hdis⟩ := List.nodup_append.1 hnd
    have h0 : dim = 0 := Subsingleton.elim _ _
    subst h0
    simp only [tightCell, holds_iff, heL, heR] at hy hz hy' hz'
    simp only [ranges_branch]
    intro x hx hkx
    rcases List.mem_append.1 hi with hi | hi <;> rcases List.mem_append.1 hk with hk | hk
    · rcases List.mem_append.1 hx with hx | hx
      · have a1 := (hy.1 hi).2
        have a2 := (hz.1 hk).2
        have a3 := (hy'.1 hk).2
        have a4 := (hz'.1 hi).2
        rw [List.append_assoc] at a1 a2 a3 a4 hkx ⊢
        exact ih1 pre _ ho hndL hi hk a1 a2 a3 a4 x hx hkx
      · exact absurd rfl (hdis k hk k (heR ▸ (holds_iff _ _ _).1 ⟨x, hx, hkx⟩))
    · exact absurd (((hy.1 hi).1.trans hlr).trans (hz.2 hk).1) (not_le.2 h1)
    · exact absurd (((hy'.1 hk).1.trans hlr).trans (hz'.2 hi).1) (not_le.2 h2)
    · rcases List.mem_append.1 hx with hx | hx
      · exact absurd rfl (hdis k (heL ▸ (holds_iff _ _ _).1 ⟨x, hx, hkx⟩) k hk)
      · have a1 := (hy.2 hi).2
        have a2 := (hz.2 hk).2
        have a3 := (hy'.2 hk).2
        have a4 := (hz'.2 hi).2
        rw [e2] at a1 a2 a3 a4 hkx ⊢
        exact ih2 (pre ++ segL) _ (by simp [ho]) hndR hi hk a1 a2 a3 a4 x hx hkx

/-- C105 (partial: one dimension, Euclidean metrics; missing: see `c105_false` and `c105_topological_false`): a box
search on a line reads the points of at most two leaves, whatever it reports. -/
theorem c105_line_partial {M : Metric α 1} {pts : Nat → Pt α 1} {o : BuildOpts α 1} {T : KdTree α 1 (Branch1 α 1)}
    (h : KdTree.make (euclideanTag α 1) M N pts n o fuel = .ok T) (hR : Representable N pts n o) (hn : 0 < n)
    (hb : BoundsContain pts n o.bounds) (mn mx : Pt α 1) (hq : mn 0 ≤ mx 0) :
    ∃ L : List (Nat × Nat), L.length ≤ 2 ∧ (∀ r ∈ L, r ∈ ranges T.data.root) ∧
      ∀ i < n, BoxReads T mn mx i → ∃ r ∈ L, i ∈ (T.data.indices.drop r.1).take (r.2 - r.1) := by
  classical
  have hq' : ∀ j, mn j ≤ mx j := fun j => by rw [Subsingleton.elim j 0]; exact hq
  obtain ⟨hperm, _, ⟨box, hB⟩, hel⟩ := KdTree.make_built h hR hn
  have hnd : T.data.indices.Nodup := hperm.nodup_iff.2 List.nodup_range
  by_cases hl : ∀ b e, T.data.root ≠ .leaf b e
  · have e : T.data.indices = [] ++ (T.data.indices ++ []) := by simp
    have same : ∀ i < n, ∀ k < n, ∀ y z y' z', tightCell T.data.indices T.data.root i y →
        tightCell T.data.indices T.data.root k z → tightCell T.data.indices T.data.root k y' →
        tightCell T.data.indices T.data.root i z' → z 0 < y 0 → z' 0 < y' 0 →
        ∀ r ∈ ranges T.data.root, k ∈ slice T.data.indices r.1 r.2 → i ∈ slice T.data.indices r.1 r.2 := by
      intro i hi k hk y z y' z' hy hz hy' hz' h1 h2
      have hi' := hperm.symm.subset (List.mem_range.2 hi)
      have hk' := hperm.symm.subset (List.mem_range.2 hk)
      rw [e] at hy hz hy' hz' ⊢
      exact same_leaf hB [] [] rfl hnd hi' hk' hy hz hy' hz' h1 h2
    have inb : ∀ x : Pt α 1, InBox mn mx x ↔ mn 0 ≤ x 0 ∧ x 0 ≤ mx 0 := fun x => by
      simp [InBox]
    -- the two kinds of leaves on the border
    let lo : Nat → Prop := fun i => (∃ y, tightCell T.data.indices T.data.root i y ∧ mn 0 ≤ y 0) ∧
      ∃ z, tightCell T.data.indices T.data.root i z ∧ z 0 < mn 0
    let up : Nat → Prop := fun i => (∃ y, tightCell T.data.indices T.data.root i y ∧ y 0 ≤ mx 0) ∧
      ∃ z, tightCell T.data.indices T.data.root i z ∧ mx 0 < z 0
    have hcase : ∀ i, OnBorder T mn mx i → lo i ∨ up i := by
      rintro i ⟨⟨y, hy, hy'⟩, z, hz, -, hz'⟩
      rw [inb] at hy' hz'
      by_cases hzm : z 0 < mn 0
      · exact Or.inl ⟨⟨y, hy, hy'.1⟩, z, hz, hzm⟩
      · exact Or.inr ⟨⟨y, hy, hy'.2⟩, z, hz, not_le.1 fun h => hz' ⟨not_lt.1 hzm, h⟩⟩
    have one : ∀ P : Nat → Prop, (∀ i < n, ∀ k < n, P i → P k → ∀ r ∈ ranges T.data.root,
        k ∈ slice T.data.indices r.1 r.2 → i ∈ slice T.data.indices r.1 r.2) →
        ∃ L : List (Nat × Nat), L.length ≤ 1 ∧ (∀ r ∈ L, r ∈ ranges T.data.root) ∧
          ∀ i < n, P i → ∃ r ∈ L, i ∈ slice T.data.indices r.1 r.2 := by
      intro P hP
      by_cases hk : ∃ k < n, P k
      · obtain ⟨k, hk, hPk⟩ := hk
        have hk' : k ∈ T.data.root.elems T.data.indices := by
          rw [hel]; exact hperm.symm.subset (List.mem_range.2 hk)
        obtain ⟨r, hr, hkr⟩ := (holds_iff _ _ _).2 hk'
        exact ⟨[r], le_rfl, fun x hx => by rw [List.mem_singleton.1 hx]; exact hr,
          fun i hi hPi => ⟨r, List.mem_singleton_self r, hP i hi k hk hPi hPk r hr hkr⟩⟩
      · exact ⟨[], Nat.zero_le _, fun x hx => absurd hx List.not_mem_nil, fun i hi hPi => absurd ⟨i, hi, hPi⟩ hk⟩
    obtain ⟨L1, a1, a2, a3⟩ := one lo (fun i hi k hk hPi hPk => by
      obtain ⟨⟨y, hy, hy1⟩, z, hz, hz1⟩ := hPi
      obtain ⟨⟨y', hy', hy1'⟩, z', hz', hz1'⟩ := hPk
      exact same i hi k hk y z' y' z hy hz' hy' hz (hz1'.trans_le hy1) (hz1.trans_le hy1'))
    obtain ⟨L2, b1, b2, b3⟩ := one up (fun i hi k hk hPi hPk => by
      obtain ⟨⟨y, hy, hy1⟩, z, hz, hz1⟩ := hPi
      obtain ⟨⟨y', hy', hy1'⟩, z', hz', hz1'⟩ := hPk
      exact same i hi k hk z y' z' y hz hy' hz' hy (hy1'.trans_lt hz1) (hy1.trans_lt hz1'))
    refine ⟨L1 ++ L2, by rw [List.length_append]; omega, fun r hr => ?_, fun i hi hri => ?_⟩
    · rcases List.mem_append.1 hr with hr | hr
      exacts [a2 r hr, b2 r hr]
    · rcases hcase i (reads_border h hR hn hb mn mx hq' hl hri) with hc | hc
      · obtain ⟨r, hr, hir⟩ := a3 i hi hc
        exact ⟨r, List.mem_append_left _ hr, hir⟩
      · obtain ⟨r, hr, hir⟩ := b3 i hi hc
        exact ⟨r, List.mem_append_right _ hr, hir⟩
  · push Not at hl
    obtain ⟨b, e, hbe⟩ := hl
    refine ⟨[(b, e)], by simp, fun r hr => by rw [List.mem_singleton.1 hr, hbe, ranges_leaf]; simp,
      fun i hi _ => ⟨_, List.mem_singleton_self _, ?_⟩⟩
    have hi' : i ∈ T.data.root.elems T.data.indices := by
      rw [hel]; exact hperm.symm.subset (List.mem_range.2 hi)
    rw [hbe] at hi'
    exact hi'

open Classical in
/-- C105 (partial, as above): with at most `m` points per leaf it reads at most `2 * m` points. -/
theorem c105_line_count_partial {M : Metric α 1} {pts : Nat → Pt α 1} {o : BuildOpts α 1} {T : KdTree α 1 (Branch1 α 1)}
    (h : KdTree.make (euclideanTag α 1) M N pts n o fuel = .ok T) (hR : Representable N pts n o) (hn : 0 < n)
    (hb : BoundsContain pts n o.bounds) {m : Nat} (hs : o.stop = .maxLeafSize m) (hm : m < 2 ^ (o.indexBits - 1))
    (mn mx : Pt α 1) (hq : mn 0 ≤ mx 0) :
    ((List.range n).filter fun i => decide (BoxReads T mn mx i)).length ≤ 2 * m := by
  obtain ⟨L, h1, h2, h3⟩ := c105_line_partial h hR hn hb mn mx hq
  have hsize := c18_leaf_size_partial h hs hm
  have hsub : ((List.range n).filter fun i => decide (BoxReads T mn mx i)).Subperm
      (L.flatMap fun r => slice T.data.indices r.1 r.2) := by
    refine List.Nodup.subperm (List.nodup_range.filter _) fun i hi => ?_
    obtain ⟨hi1, hi2⟩ := List.mem_filter.1 hi
    obtain ⟨r, hr, hir⟩ := h3 i (List.mem_range.1 hi1) (of_decide_eq_true hi2)
    exact List.mem_flatMap.2 ⟨r, hr, hir⟩
  have hlen : ∀ L : List (Nat × Nat), (∀ r ∈ L, r ∈ ranges T.data.root) →
      (L.flatMap fun r => slice T.data.indices r.1 r.2).length ≤ L.length * m := by
    intro L
    induction L with
    | nil => simp
    | cons r L ih =>
      intro hL
      rw [List.flatMap_cons, List.length_append, List.length_cons, Nat.succ_mul]
      have := ih fun x hx => hL x (List.mem_cons_of_mem _ hx)
      have h4 : (slice T.data.indices r.1 r.2).length ≤ m :=
        (List.length_take_le _ _).trans (hsize r (hL r List.mem_cons_self))
      omega
  exact (hsub.length_le.trans (hlen L h2)).trans (Nat.mul_le_mul_right m h1)

/-! ### No bound for topological metrics -/

theorem boxReach_topological {q : Box α d} (hq : ∀ j, q.min j ≤ q.max j) {o : Nat} {t : Tree (Branch2 α d)}
    {seg : List Nat} {box : Box α d} (h : Boxed pts (topologicalTag α d).setBranch o t seg box) (pre post : List Nat)
    (ho : o = pre.length) (hnd : seg.Nodup) (B : Box α d) {i : Nat} (hi : i ∈ seg) (hB : B.Mem (pts i))
    (hout : (topologicalTag α d).containsPt M q (pts i) = false) :
    BoxReach (topologicalTag α d).splitDim (topologicalTag α d).leftMax (topologicalTag α d).rightMin
      ((topologicalTag α d).containsBox M q) ((topologicalTag α d).intersectsLeft q)
      ((topologicalTag α d).intersectsRight q) (pre ++ (seg ++ post)) t B i := by
  induction h generalizing pre post B with
  | leaf h => trivial
  | @branch o l r segL segR boxL boxR dim hl hr ih1 ih2 =>
    have e2 : pre ++ ((segL ++ segR) ++ post) = (pre ++ segL) ++ (segR ++ post) := by simp
    have heL : l.elems (pre ++ ((segL ++ segR) ++ post)) = segL := by
      rw [List.append_assoc]; exact hl.elems_eq pre _ ho
    have heR : r.elems (pre ++ ((segL ++ segR) ++ post)) = segR := by
      rw [e2]; exact hr.elems_eq _ _ (by simp [ho])
    obtain ⟨hndL, hndR, hdis⟩ := List.nodup_append.1 hnd
    have hno : ∀ B' : Box α d, B'.Mem (pts i) → (topologicalTag α d).containsBox M q B' = false := by
      intro B' hB'
      rw [Bool.eq_false_iff]
      intro hc
      exact Bool.eq_false_iff.1 hout (Box.topContainsBox_mem hc hB')
    simp only [BoxReach, heL, heR]
    refine ⟨fun h => ?_, fun h => ?_⟩
    · have hm : (B.setMax dim (boxL.max dim)).Mem (pts i) := by
        intro j
        by_cases hj : j = dim
        · subst hj; simpa using ⟨(hB j).1, (hl.mem i h j).2⟩
        · rw [Box.setMax_max_ne _ _ hj]; exact hB j
      refine ⟨hno _ hm, ?_, ?_⟩
      · have := (hl.mem i h dim).1.trans (hl.mem i h dim).2
        have hq := hq dim
        simp only [topologicalTag, setBranchTopological, Bool.or_eq_true, decide_eq_true_eq]
        rcases le_total (q.min dim) (boxL.max dim) with h' | h'
        · exact Or.inl h'
        · exact Or.inr ((this.trans h').trans hq)
      · rw [List.append_assoc]
        exact ih1 pre _ ho hndL _ h hm
    · have hm : (B.setMin dim (boxR.min dim)).Mem (pts i) := by
        intro j
        by_cases hj : j = dim
        · subst hj; simpa using ⟨(hr.mem i h j).1, (hB j).2⟩
        · rw [Box.setMin_min_ne _ _ hj]; exact hB j
      refine ⟨hno _ hm, ?_, ?_⟩
      · have := (hr.mem i h dim).1.trans (hr.mem i h dim).2
        have hq := hq dim
        simp only [topologicalTag, setBranchTopological, Bool.or_eq_true, decide_eq_true_eq]
        rcases le_total (q.min dim) (boxR.max dim) with h' | h'
        · exact Or.inr h'
        · exact Or.inl ((this.trans h').trans hq)
      · rw [e2]
        exact ih2 (pre ++ segL) _ (by simp [ho]) hndR _ h hm

/-- C105 is false for topological metrics: in every tree, every search for a box with `mn ≤ mx` reads every point that
it does not report. No part of the tree is left out. -/
theorem c105_topological_false {T : KdTree α d (Branch2 α d)}
    (h : KdTree.make (topologicalTag α d) M N pts n o fuel = .ok T) (hb : BoundsContain pts n o.bounds) (mn mx : Pt α d)
    (hq : ∀ j, mn j ≤ mx j) : ∀ i < n, i ∉ T.searchBox mn mx [] → BoxReads T mn mx i := by
  classical
  intro i hi hno
  obtain ⟨box, hc⟩ := created_of_make h
  have hroot : T.data.rootBox = boxFromBounds N pts n o.bounds :=
    (buildTree_created (KdTree.make_ok h).2.2.2.2.2).1
  have hm := boundsContain_mem (N := N) hb i hi
  have h4 : T.pts = pts := (KdTree.make_ok h).2.2.2.1
  have hi' : i ∈ T.data.indices := hc.perm.symm.subset (List.mem_range.2 hi)
  have hnd : T.data.indices.Nodup := hc.perm.nodup_iff.2 List.nodup_range
  have other := searchBox_other h hb mn mx (boxQuery_topological M _ pts)
    (fun b i h1 h2 => Box.topContainsBox_mem h1 h2) []
  have hout : (topologicalTag α d).containsPt M ⟨mn, mx⟩ (pts i) = false := by
    have e : T.searchBox mn mx [] = ({ T with pts := pts } : KdTree α d _).searchBox mn mx [] := by rw [← h4]
    rw [e, other pts, List.mem_filter] at hno
    rw [Bool.eq_false_iff]
    intro hc
    exact hno ⟨hi', by split_ifs <;> exact hc⟩
  refine ⟨fun _ => mn, fun hiff => hno (hiff.1 ?_)⟩
  rw [other, List.mem_filter]
  refine ⟨hi', ?_⟩
  have := boxReach_topological (M := M) (q := ⟨mn, mx⟩) hq hc.boxed [] [] rfl hnd T.data.rootBox hi' (hroot ▸ hm) hout
  simp only [List.nil_append, List.append_nil] at this
  rw [if_pos this]
  refine (Box.topContainsPt_iff _ _ _).2 ?_
  intro j
  cases M.space j with
  | r1 => exact ⟨le_rfl, hq j⟩
  | s1 =>
    show if mn j ≤ mx j then _ else _
    rw [if_pos (hq j)]
    exact ⟨le_rfl, hq j⟩

end

/-! ### No bound in the plane -/

section
variable {α : Type} [Field α] [LinearOrder α] [IsStrictOrderedRing α]

/-- All branches split along axis `j`. -/
def SplitsAlong {d : Nat} (j : Fin d) : Tree (Branch1 α d) → Prop
  | .leaf _ _ => True
  | .branch b l r => b.splitDim = j ∧ SplitsAlong j l ∧ SplitsAlong j r

theorem SplitsAlong.tight {d : Nat} {j : Fin d} {pts : Nat → Pt α d} {o : Nat} {t : Tree (Branch1 α d)} {seg : List Nat}
    {box : Box α d} (h : Boxed pts (euclideanTag α d).setBranch o t seg box) (hs : SplitsAlong j t) (pre post : List Nat)
    (ho : o = pre.length) (hnd : seg.Nodup) {i : Nat} (hi : i ∈ seg) {y : Pt α d} (hy : y j = pts i j) :
    tightCell (pre ++ (seg ++ post)) t i y := by
  induction h generalizing pre post with
  | leaf h => trivial
  | @branch o l r segL segR boxL boxR dim hl hr ih1 ih2 =>
    obtain ⟨heL, heR⟩ := hl.split_elems (pre := pre) (post := post) hr ho
    obtain ⟨hndL, hndR, hdis⟩ := List.nodup_append.1 hnd
    obtain ⟨h1, h2, h3⟩ := hs
    change dim = j at h1
    subst h1
    simp only [tightCell, holds_iff, heL, heR]
    refine ⟨fun h => ⟨?_, ?_⟩, fun h => ⟨?_, ?_⟩⟩
    · exact hy.le.trans (hl.mem i h dim).2
    · rw [List.append_assoc]
      exact ih1 h2 pre _ ho hndL h
    · exact (hr.mem i h dim).1.trans hy.ge
    · have e : pre ++ ((segL ++ segR) ++ post) = (pre ++ segL) ++ (segR ++ post) := by simp
      rw [e]
      exact ih2 h3 (pre ++ segL) _ (by simp [ho]) hndR h

/-- `n` points on the first axis with distance `1 / n`, the first one lifted by half of this. -/
def comb (n : Nat) (i : Nat) : Pt α 2 := ![(i : α) / n, if i = 0 then 1 / (2 * n) else 0]

theorem comb_splits {n m : Nat} {N : Num α} {o : BuildOpts α 2} (hn : 0 < n) (hs : o.stop = .maxLeafSize m)
    (hm1 : 1 ≤ m) (hm : m < 2 ^ (o.indexBits - 1)) {depth : Int} {k : Nat} {seg seg' : List Nat} {box box' : Box α 2}
    {t : Tree (Branch1 α 2)}
    (h : Created (KdTree.cfg (euclideanTag α 2) N (comb n) o) depth k seg box t seg' box') (hnd : seg.Nodup)
    (hbox : ∀ i ∈ seg, box.min 0 ≤ comb n i 0 ∧ comb n i 0 ≤ box.max 0) (hy : box.max 1 - box.min 1 ≤ 1 / (2 * n)) :
    SplitsAlong 0 t := by
  induction h with
  | leaf => trivial
  | @branch depth k seg box sp l r segL segR boxL boxR hl hsp left right ih1 ih2 =>
    have hlen : m < seg.length := by
      simp only [isLeaf, KdTree.cfg, hs, castIndex_eq hm, decide_eq_false_iff_not] at hl
      exact_mod_cast not_le.1 hl
    obtain ⟨hok, ⟨delta, hmax, -⟩, -⟩ := splitter_ok hsp
    have hn' : (0 : α) < n := by exact_mod_cast hn
    have hdim : sp.dim = 0 := by
      -- two different points
      obtain ⟨a, b, hab, ha, hb⟩ : ∃ a b, a < b ∧ a ∈ seg ∧ b ∈ seg := by
        match seg, hlen, hnd with
        | a :: b :: _, _, hnd =>
          have hne : a ≠ b := fun h => by simp [h] at hnd
          rcases Nat.lt_or_gt_of_ne hne with h | h
          · exact ⟨a, b, h, by simp, by simp⟩
          · exact ⟨b, a, h, by simp, by simp⟩
        | [a], hlen, _ => simp at hlen; omega
        | [], hlen, _ => simp at hlen
      have h1 : comb n a 0 + 1 / n ≤ (comb n b 0 : α) := by
        simp only [comb, Matrix.cons_val_zero]
        rw [← add_div]
        refine (div_le_div_iff_of_pos_right hn').2 ?_
        exact_mod_cast hab
      have h2 : (1 : α) / n ≤ box.max 0 - box.min 0 := by
        have := (hbox a ha).1
        have := (hbox b hb).2
        linarith
      have h3 : (1 : α) / (2 * n) < 1 / n := by
        rw [div_lt_div_iff₀ (by positivity) hn']
        linarith
      obtain ⟨e1, -, -, e4⟩ := maxSide_some hmax
      have h5 := e4 0
      by_contra hne
      have : sp.dim = 1 := by
        have := sp.dim.isLt
        ext
        have : (sp.dim : Nat) ≠ 0 := fun h => hne (Fin.ext h)
        show (sp.dim : Nat) = 1
        omega
      rw [this] at e1
      rw [e1] at h5
      linarith
    refine ⟨hdim, ih1 ?_ ?_ ?_, ih2 ?_ ?_ ?_⟩
    · exact (hok.perm.nodup_iff.2 hnd).sublist (List.take_sublist _ _)
    · intro i hi
      have h1 := hbox i (hok.perm.subset (List.mem_of_mem_take hi))
      have h2 := hok.left_le i hi
      rw [hdim] at h2 ⊢
      simpa using ⟨h1.1, h2⟩
    · rw [hdim, Box.setMax_max_ne _ _ (by decide)]
      exact hy
    · exact (hok.perm.nodup_iff.2 hnd).sublist (List.drop_sublist _ _)
    · intro i hi
      have h1 := hbox i (hok.perm.subset (List.mem_of_mem_drop hi))
      have h2 := hok.right_ge i hi
      rw [hdim] at h2 ⊢
      simpa using ⟨h2, h1.2⟩
    · rw [hdim, Box.setMin_min_ne _ _ (by decide)]
      exact hy

end

/-- C105 is false for Euclidean metrics in the plane: for every standard library, the median and the sliding midpoint
rule, every leaf size `m` and every number `n > m` of points, there is a tree and a box whose search reports nothing and
reads all `n` points. -/
theorem c105_all_false (S : Std) {rule : Rule} (hr : rule ≠ .midpoint) {m n : Nat} (hm1 : 1 ≤ m) (hm : m < 2 ^ 31)
    (hn : m < n) :
    ∃ fuel T, KdTree.make (euclideanTag Rat 2) (metricL2Sq Rat 2) Ref.ratNum (comb n) n
        ⟨S, rule, .maxLeafSize m, .fromSpace, 32⟩ fuel = .ok T ∧
      ∃ mn mx, (∀ j, mn j ≤ mx j) ∧ T.searchBox mn mx [] = [] ∧ ∀ i < n, BoxReads T mn mx i := by
  classical
  have hn0 : 0 < n := by omega
  have hn' : (0 : Rat) < n := by exact_mod_cast hn0
  have hn1 : (1 : Rat) ≤ n := by exact_mod_cast hn0
  have hhalf : (0 : Rat) < 1 / (2 * n) ∧ (1 : Rat) / (2 * n) ≤ 1 := by
    refine ⟨by positivity, ?_⟩
    rw [div_le_one (by positivity)]
    linarith
  have hy : ∀ i, (0 : Rat) ≤ comb n i 1 ∧ comb n i 1 ≤ (1 : Rat) / (2 * n) := by
    intro i
    simp only [comb, Matrix.cons_val_one, Matrix.cons_val_fin_one]
    split_ifs
    · exact ⟨hhalf.1.le, le_rfl⟩
    · exact ⟨le_rfl, hhalf.1.le⟩
  have hp : ∀ i < n, ∀ j, (0 : Rat) ≤ comb n i j ∧ comb n i j ≤ (1 : Rat) := by
    intro i hi j
    have hi' : (i : Rat) ≤ n := by exact_mod_cast hi.le
    fin_cases j
    · exact ⟨div_nonneg (Nat.cast_nonneg i) hn'.le, (div_le_one hn').2 hi'⟩
    · exact ⟨(hy i).1, (hy i).2.trans hhalf.2⟩
  obtain ⟨fuel, T, hT⟩ := c22_terminates_partial (n := n) (N := Ref.ratNum) (pts := comb n)
    (o := ⟨S, rule, .maxLeafSize m, .fromSpace, 32⟩) (euclideanTag Rat 2) (metricL2Sq Rat 2) (a := 0) (b := 1)
    (splitSafe_field (fun x => by simp only [Ref.ratNum]; ring) (fun x => rfl) (by norm_num [Ref.ratNum]))
    (by decide) hn0 hr
    (by intro k hk; simp only [Stop.maxLeafSize.injEq] at hk; subst hk; exact ⟨hm1, hm⟩)
    hp (by norm_num [Ref.ratNum]) (by simp)
  have h := hT fuel le_rfl
  have hR : Representable Ref.ratNum (comb n) n (⟨S, rule, .maxLeafSize m, .fromSpace, 32⟩ : BuildOpts Rat 2) := by
    refine ⟨by norm_num [Ref.ratNum], fun i hi j => ?_, trivial, fun h => absurd h hr⟩
    have := hp i hi j
    exact ⟨by simp only [Ref.ratNum]; linarith, by simp only [Ref.ratNum]; linarith⟩
  obtain ⟨box, hc⟩ := created_of_make h
  have hroot : T.data.rootBox = boxFromBounds Ref.ratNum (comb n) n .fromSpace :=
    (buildTree_created (KdTree.make_ok h).2.2.2.2.2).1
  have hmem := boxFromBounds_fromSpace_mem Ref.ratNum (comb n) n
  have hsplit : SplitsAlong 0 T.data.root := by
    refine comb_splits (o := ⟨S, rule, .maxLeafSize m, .fromSpace, 32⟩) hn0 rfl hm1 hm hc List.nodup_range (fun i hi => hmem i (List.mem_range.1 hi) 0) ?_
    have h1 : (0 : Rat) ≤ (boxFromBounds Ref.ratNum (comb n) n .fromSpace).min 1 :=
      (foldl_fitPt_min (comb n) _ _ 1 _).2 ⟨by norm_num [Ref.ratNum, Box.inverseMax], fun i _ => (hy i).1⟩
    have h2 : (boxFromBounds Ref.ratNum (comb n) n .fromSpace).max 1 ≤ (1 : Rat) / (2 * n) :=
      (foldl_fitPt_max (comb n) _ _ 1 _).2 ⟨by
        refine le_trans ?_ hhalf.1.le
        norm_num [Ref.ratNum, Box.inverseMax], fun i _ => (hy i).2⟩
    linarith
  have hnl : ∀ b e, T.data.root ≠ .leaf b e := by
    intro b e he
    have hsize := c18_leaf_size_partial h rfl hm
    have hlen := hc.perm.length_eq
    obtain ⟨-, -, -, hel⟩ := KdTree.make_built h hR hn0
    rw [he] at hel hsize
    have h1 := hsize (b, e) (by rw [ranges_leaf]; simp)
    have h2 := congrArg List.length hel
    rw [Tree.elems, slice] at h2
    have h3 := List.length_take_le (e - b) (T.data.indices.drop b)
    rw [List.length_range] at hlen
    simp only at h1
    omega
  have hnd : T.data.indices.Nodup := hc.perm.nodup_iff.2 List.nodup_range
  have e0 : T.data.indices = [] ++ (T.data.indices ++ []) := by simp
  have h8 : (0 : Rat) < 1 / (8 * n) := by positivity
  have h84 : (1 : Rat) / (8 * n) ≤ 1 / (4 * n) := by
    rw [div_le_div_iff₀ (by positivity) (by positivity)]
    linarith
  have h42 : (1 : Rat) / (4 * n) < 1 / (2 * n) := by
    rw [div_lt_div_iff₀ (by positivity) (by positivity)]
    linarith
  have hq : ∀ j, (![-1, 1 / (8 * n)] : Pt Rat 2) j ≤ (![2, 1 / (4 * n)] : Pt Rat 2) j := by
    intro j
    fin_cases j
    · show (-1 : Rat) ≤ 2
      norm_num
    · exact h84
  have hout : ∀ i, ¬ InBox (![-1, 1 / (8 * n)] : Pt Rat 2) ![2, 1 / (4 * n)] (comb n i) := by
    intro i hin
    have h1 : (1 : Rat) / (8 * n) ≤ comb n i 1 ∧ comb n i 1 ≤ (1 : Rat) / (4 * n) := hin 1
    simp only [comb, Matrix.cons_val_one, Matrix.cons_val_fin_one] at h1
    split_ifs at h1 <;> linarith
  have hno : T.searchBox ![-1, 1 / (8 * n)] ![2, 1 / (4 * n)] [] = [] := by
    rw [List.eq_nil_iff_forall_not_mem]
    intro i hi
    exact hout i (((c08_box h trivial _ _ []).2 i).1 hi).2
  refine ⟨fuel, T, h, ![-1, 1 / (8 * n)], ![2, 1 / (4 * n)], hq, hno, fun i hi => ?_⟩
  have hi' : i ∈ T.data.indices := hc.perm.symm.subset (List.mem_range.2 hi)
  have hcell : ∀ y : Pt Rat 2, y 0 = comb n i 0 → tightCell T.data.indices T.data.root i y := by
    intro y hy
    rw [e0]
    exact hsplit.tight hc.boxed [] [] rfl hnd hi' hy
  have hb : OnBorder T ![-1, 1 / (8 * n)] ![2, 1 / (4 * n)] i := by
    refine ⟨⟨![comb n i 0, 1 / (4 * n)], hcell _ rfl, fun j => ?_⟩, comb n i, hcell _ rfl, ?_, hout i⟩
    · have := hp i hi 0
      fin_cases j
      · show (-1 : Rat) ≤ comb n i 0 ∧ comb n i 0 ≤ (2 : Rat)
        constructor <;> linarith
      · exact ⟨h84, le_rfl⟩
    · rw [hroot]
      exact hmem i hi
  refine ⟨fun _ => ![-1, 1 / (8 * n)], fun hiff => ?_⟩
  rw [hno] at hiff
  refine List.not_mem_nil (hiff.1 ?_)
  rw [c104 h hR hn0 trivial _ _ hq hnl, List.mem_filter]
  refine ⟨hi', ?_⟩
  rw [if_pos hb, decide_eq_true_eq]
  exact fun j => ⟨le_rfl, hq j⟩

open Classical in
/-- C105 is false: for every constant `c` there are a tree of `n` points in the plane, with one point per leaf, and a box
such that the search reads more than `c * (√n + k + 1)` points, where `k` is the number of points it reports. -/
theorem c105_false (c : Nat) {rule : Rule} (hr : rule ≠ .midpoint) :
    ∃ n fuel T, KdTree.make (euclideanTag Rat 2) (metricL2Sq Rat 2) Ref.ratNum (comb n) n
        ⟨Ref.std, rule, .maxLeafSize 1, .fromSpace, 32⟩ fuel = .ok T ∧
      ∃ mn mx, (∀ j, mn j ≤ mx j) ∧
        c * (Nat.sqrt n + (T.searchBox mn mx []).length + 1) <
          ((List.range n).filter fun i => decide (BoxReads T mn mx i)).length := by
  have h4 : 4 ≤ (2 * c + 2) * (2 * c + 2) := by nlinarith
  obtain ⟨fuel, T, h, mn, mx, hq, h1, h2⟩ := c105_all_false Ref.std hr (m := 1) (n := (2 * c + 2) * (2 * c + 2)) le_rfl
    (by norm_num) (by omega)
  refine ⟨_, fuel, T, h, mn, mx, hq, ?_⟩
  rw [h1, List.filter_eq_self.2 (fun i hi => by simpa using h2 i (List.mem_range.1 hi)), List.length_range,
    Nat.sqrt_eq, List.length_nil]
  nlinarith

/-! ## Examples -/

/-- The hypotheses of `c105_line_partial`: eight points on a line, two per leaf. The search for the box from 2 to 18
reads four of them (0, 1, 4, 5); 2 and 3 are reported without a look. -/
example : ∃ T, KdTree.make (euclideanTag Int 1) (metricL1 Int 1) Ref.intNum (fun i => ![4 * (i : Int)]) 8
      (Ref.optsMedian Int 1) 10 = .ok T ∧
    (Representable Ref.intNum (fun i => ![4 * (i : Int)]) 8 (Ref.optsMedian Int 1) ∧
      BoundsContain (fun i => ![4 * (i : Int)]) 8 (Ref.optsMedian Int 1).bounds) ∧
    T.searchBox ![2] ![18] [] = [1, 2, 3, 4] ∧
    ({ T with pts := fun _ => ![3] } : KdTree Int 1 _).searchBox ![2] ![18] [] = [0, 1, 2, 3, 4, 5] ∧
    ({ T with pts := fun _ => ![1] } : KdTree Int 1 _).searchBox ![2] ![18] [] = [2, 3] := by
  obtain ⟨T, h, hp⟩ := Outcome.exists_of_check
    (x := KdTree.make (euclideanTag Int 1) (metricL1 Int 1) Ref.intNum (fun i => ![4 * (i : Int)]) 8
      (Ref.optsMedian Int 1) 10)
    (p := fun T => decide (T.searchBox ![2] ![18] [] = [1, 2, 3, 4] ∧
      ({ T with pts := fun _ => ![3] } : KdTree Int 1 _).searchBox ![2] ![18] [] = [0, 1, 2, 3, 4, 5] ∧
      ({ T with pts := fun _ => ![1] } : KdTree Int 1 _).searchBox ![2] ![18] [] = [2, 3])) (by decide +kernel)
  exact ⟨T, h, ⟨⟨by decide +kernel, by unfold InRange; decide +kernel, trivial, by simp [Ref.optsMedian]⟩, trivial⟩,
    of_decide_eq_true hp⟩

/-- The hypotheses of `c105_topological_false`: eight angles. The search for an arc without points gives all eight when
all coordinates are moved into it. -/
example : ∃ T, KdTree.make (topologicalTag Rat 1) (metricSO2 Rat) Ref.ratNum (fun i => ![(i : Rat) / 8]) 8
      (Ref.optsSliding Rat 1) 10 = .ok T ∧ BoundsContain (fun i => ![(i : Rat) / 8]) 8 (Ref.optsSliding Rat 1).bounds ∧
    T.searchBox ![1 / 32] ![1 / 16] [] = [] ∧
    ({ T with pts := fun _ => ![1 / 16] } : KdTree Rat 1 _).searchBox ![1 / 32] ![1 / 16] [] = [0, 1, 2, 3, 4, 5, 6, 7] := by
  obtain ⟨T, h, hp⟩ := Outcome.exists_of_check
    (x := KdTree.make (topologicalTag Rat 1) (metricSO2 Rat) Ref.ratNum (fun i => ![(i : Rat) / 8]) 8
      (Ref.optsSliding Rat 1) 10)
    (p := fun T => decide (T.searchBox ![1 / 32] ![1 / 16] [] = [] ∧
      ({ T with pts := fun _ => ![1 / 16] } : KdTree Rat 1 _).searchBox ![1 / 32] ![1 / 16] [] =
        [0, 1, 2, 3, 4, 5, 6, 7])) (by decide +kernel)
  exact ⟨T, h, trivial, of_decide_eq_true hp⟩

end Pico.Props
