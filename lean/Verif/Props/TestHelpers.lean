import Verif.Model.TestHelpers
import Verif.Props.Nearest
import Verif.Props.Box
import Verif.Ref

/-!
# C99: the oracles of the tests
-/

namespace Pico.Props

open Pico Spec TestHelpers

/-! ## test_box -/

theorem testBox_iff (n : Nat) (contains : Nat → Bool) (idxs : List Nat) :
    testBox n contains idxs = .ok true ↔
      (∀ j ∈ idxs, j < n ∧ contains j = true) ∧ (List.range n).countP contains = idxs.length := by
  unfold testBox
  constructor
  · intro h
    split at h
    · rename_i h1
      injection h with h
      rw [Bool.and_eq_true, List.all_eq_true, beq_iff_eq] at h
      rw [List.all_eq_true] at h1
      exact ⟨fun j hj => ⟨of_decide_eq_true (h1 j hj), h.1 j hj⟩, h.2⟩
    · cases h
  · rintro ⟨h1, h2⟩
    rw [if_pos (List.all_eq_true.2 fun j hj => decide_eq_true (h1 j hj).1)]
    congr 1
    rw [Bool.and_eq_true, List.all_eq_true, beq_iff_eq]
    exact ⟨fun j hj => (h1 j hj).2, h2⟩

theorem perm_of_count {n : Nat} {p : Nat → Bool} {l : List Nat} (hd : l.Nodup) (h : ∀ j ∈ l, j < n ∧ p j = true)
    (hc : (List.range n).countP p = l.length) : l.Perm ((List.range n).filter p) := by
  refine (hd.subperm fun j hj => ?_).perm_of_length_le ?_
  · rw [List.mem_filter, List.mem_range]
    exact h j hj
  · rw [← List.countP_eq_length_filter, hc]

/-- C99: for results without duplicates `test_box` accepts exactly the right ones. -/
theorem c99_box_partial (n : Nat) (contains : Nat → Bool) (idxs : List Nat) (hd : idxs.Nodup) :
    testBox n contains idxs = .ok true ↔ IsSelection n (fun i => contains i = true) idxs := by
  rw [testBox_iff]
  constructor
  · rintro ⟨h1, h2⟩
    refine ⟨hd, fun i => ?_⟩
    rw [(perm_of_count hd h1 h2).mem_iff, List.mem_filter, List.mem_range]
  · rintro ⟨-, h⟩
    refine ⟨fun j hj => (h j).1 hj, ?_⟩
    rw [List.countP_eq_length_filter]
    refine List.Perm.length_eq ((List.perm_ext_iff_of_nodup (List.nodup_range.filter _) hd).2 fun i => ?_)
    rw [List.mem_filter, List.mem_range, h]

/-- C99 is false for `test_box`: a search that reports one of two points twice and misses the other one is
accepted. -/
theorem c99_box_false : testBox 2 (fun _ => true) [0, 0] = .ok true ∧ ¬ IsSelection 2 (fun _ => true = true) [0, 0] :=
  ⟨rfl, fun h => by simpa using h.1⟩

/-- An index that is no point makes `test_box` read behind the points; all other lists give a verdict. -/
theorem c99_box_outside (n : Nat) (contains : Nat → Bool) (idxs : List Nat) :
    testBox n contains idxs = .ub ↔ ∃ j ∈ idxs, n ≤ j := by
  unfold testBox
  split_ifs with h
  · simp only [List.all_eq_true, decide_eq_true_eq] at h
    simp only [false_iff, not_exists, not_and, not_le]
    exact h
  · simp only [List.all_eq_true, decide_eq_true_eq, not_forall, not_lt] at h
    simpa using h

section
variable {α : Type} [LinearOrder α] [Zero α] [One α] [Add α] [Sub α] [Neg α] {d : Nat} {N : Num α} {M : Metric α d}
  {pts : Nat → Pt α d} {n : Nat} {o : BuildOpts α d} {fuel : Nat}

/-- The tree passes `test_box`. -/
theorem c99_box_tree {T : KdTree α d (Branch1 α d)} (h : KdTree.make (euclideanTag α d) M N pts n o fuel = .ok T)
    (hb : BoundsContain pts n o.bounds) (mn mx : Pt α d) (prior : List Nat) :
    testBox n (fun i => (⟨mn, mx⟩ : Box α d).containsPt (pts i)) (T.searchBox mn mx prior) = .ok true := by
  have := c08_box h hb mn mx prior
  rw [c99_box_partial _ _ _ this.1]
  exact ⟨this.1, fun i => (this.2 i).trans (and_congr_right fun _ => (containsPt_iff_inBox _ _ _).symm)⟩

end

/-! ## test_radius -/

section
variable {α : Type} [Field α] [LinearOrder α] {n : Nat} {dist : Nat → α}

theorem testRadius_iff (floatEq : α → α → Bool) (r e : α) (exact apprx : List (Neighbor α)) :
    testRadius floatEq n dist r e exact apprx = .ok true ↔
      (∀ a ∈ exact, a.index < n ∧ dist a.index ≤ r ∧ dist a.index = a.distance) ∧
      (∀ a ∈ apprx, a.index < n ∧ dist a.index ≤ r ∧ floatEq (dist a.index) (a.distance * e) = true) ∧
      (List.range n).countP (fun j => decide (dist j ≤ r)) = exact.length ∧
      apprx.length ≤ (List.range n).countP (fun j => decide (dist j ≤ r)) := by
  unfold testRadius
  constructor
  · intro h
    split at h
    · rename_i h1
      injection h with h
      simp only [Bool.and_eq_true, List.all_eq_true, decide_eq_true_eq, List.mem_append] at h h1
      exact ⟨fun a ha => ⟨h1 a (.inl ha), h.1.1.1 a ha⟩, fun a ha => ⟨h1 a (.inr ha), h.1.1.2 a ha⟩, h.1.2, h.2⟩
    · cases h
  · rintro ⟨h1, h2, h3, h4⟩
    rw [if_pos]
    · refine congrArg Outcome.ok ?_
      simp only [Bool.and_eq_true, List.all_eq_true, decide_eq_true_eq]
      exact ⟨⟨⟨fun a ha => (h1 a ha).2, fun a ha => (h2 a ha).2⟩, h3⟩, h4⟩
    · simp only [List.all_eq_true, decide_eq_true_eq, List.mem_append]
      rintro a (ha | ha)
      · exact (h1 a ha).1
      · exact (h2 a ha).1

/-- What `test_radius` asks of the exact results, if there are no duplicates: all points at distance at most
`radius`. -/
theorem c99_radius_partial (floatEq : α → α → Bool) (r e : α) (exact apprx : List (Neighbor α))
    (hd : (exact.map Neighbor.index).Nodup) (h : testRadius floatEq n dist r e exact apprx = .ok true) :
    exact.Perm ((all n dist).filter fun x => decide (x.distance ≤ r)) := by
  obtain ⟨h1, -, h3, -⟩ := (testRadius_iff floatEq r e exact apprx).1 h
  have hp := perm_of_count (n := n) (p := fun j => decide (dist j ≤ r)) hd
    (fun j hj => by
      obtain ⟨a, ha, rfl⟩ := List.mem_map.1 hj
      exact ⟨(h1 a ha).1, decide_eq_true (h1 a ha).2.1⟩)
    (by rw [List.length_map]; exact h3)
  have hx : exact = (exact.map Neighbor.index).map fun i => ⟨i, dist i⟩ := by
    rw [List.map_map]
    refine (List.map_id exact).symm.trans (List.map_congr_left fun a ha => ?_)
    obtain ⟨i, δ⟩ := a
    have := (h1 _ ha).2.2
    simp only [id_eq, Function.comp, this]
  rw [hx]
  refine (hp.map _).trans (.of_eq ?_)
  unfold all
  rw [List.filter_map]
  rfl

/-- The same for `test_radius`. -/
theorem c99_radius_outside (floatEq : α → α → Bool) (r e : α) (exact apprx : List (Neighbor α)) :
    testRadius floatEq n dist r e exact apprx = .ub ↔ ∃ a ∈ exact ++ apprx, n ≤ a.index := by
  unfold testRadius
  split_ifs with h
  · simp only [List.all_eq_true, decide_eq_true_eq] at h
    simp only [false_iff, not_exists, not_and, not_le]
    exact h
  · simp only [List.all_eq_true, decide_eq_true_eq, not_forall, not_lt] at h
    simpa using h

/-- A radius search that is right, and its approximate version, pass `test_radius` exactly if no point is at the
distance `radius`. -/
theorem c99_radius_right (floatEq : α → α → Bool) (hrefl : ∀ a, floatEq a a = true) (r e : α)
    (exact apprx : List (Neighbor α)) (h1 : IsRadius n dist r exact) (h2 : IsApproxRadius n dist r e apprx) :
    testRadius floatEq n dist r e exact apprx = .ok true ↔ ∀ i < n, dist i ≠ r := by
  have hlen : exact.length = (List.range n).countP fun j => decide (dist j < r) := by
    rw [h1.length_eq, all, List.filter_map, List.length_map, List.countP_eq_length_filter]
    rfl
  have hle : (List.range n).countP (fun j => decide (dist j < r)) ≤
      (List.range n).countP (fun j => decide (dist j ≤ r)) :=
    List.countP_mono_left fun j _ h => decide_eq_true (of_decide_eq_true h).le
  have hap : apprx.length ≤ (List.range n).countP fun j => decide (dist j < r) := by
    rw [List.countP_eq_length_filter, ← List.length_map (f := Neighbor.index)]
    refine (h2.distinct.subperm fun j hj => ?_).length_le
    obtain ⟨a, ha, rfl⟩ := List.mem_map.1 hj
    obtain ⟨g1, -, g3⟩ := h2.sound a ha
    exact List.mem_filter.2 ⟨List.mem_range.2 g1, decide_eq_true g3⟩
  rw [testRadius_iff]
  constructor
  · rintro ⟨-, -, h3, -⟩ i hi heq
    have hlt : (List.range n).countP (fun j => decide (dist j < r)) <
        (List.range n).countP (fun j => decide (dist j ≤ r)) := by
      obtain ⟨l1, l2, hl⟩ := List.append_of_mem (List.mem_range.2 hi)
      rw [hl, List.countP_append, List.countP_append, List.countP_cons_of_neg (by simp [heq]),
        List.countP_cons_of_pos (by simp [heq])]
      have a1 := List.countP_mono_left (l := l1) (p := fun j => decide (dist j < r))
        (q := fun j => decide (dist j ≤ r)) fun j _ h => decide_eq_true (of_decide_eq_true h).le
      have a2 := List.countP_mono_left (l := l2) (p := fun j => decide (dist j < r))
        (q := fun j => decide (dist j ≤ r)) fun j _ h => decide_eq_true (of_decide_eq_true h).le
      omega
    omega
  · intro hne
    refine ⟨fun a ha => ?_, fun a ha => ?_, ?_, hap.trans hle⟩
    · obtain ⟨g1, g2⟩ := List.mem_filter.1 (h1.mem_iff.1 ha)
      obtain ⟨i, hi, rfl⟩ := List.mem_map.1 g1
      exact ⟨List.mem_range.1 hi, (of_decide_eq_true g2).le, rfl⟩
    · obtain ⟨g1, g2, g3⟩ := h2.sound a ha
      exact ⟨g1, g3.le, by rw [g2]; exact hrefl _⟩
    · rw [hlen]
      refine List.countP_congr fun j hj => ?_
      have := hne j (List.mem_range.1 hj)
      simp only [decide_eq_true_eq]
      exact ⟨fun h => lt_of_le_of_ne h this, le_of_lt⟩

end

/-! ## test_knn -/

section
variable {α : Type} [LinearOrder α] {n : Nat} {dist : Nat → α}

/-- The reference finds the nearest neighbors. -/
theorem c99_reference (A : StdNth (Neighbor α)) (S : StdSort (Neighbor α)) (k : Nat) (hk : 0 < k) (hn : 0 < n) :
    ∃ out, searchKnn A S n k dist = .ok out ∧ IsKnn n k dist out := by
  have hm : min k n ≠ 0 := by omega
  refine ⟨_, by unfold searchKnn; rw [if_neg hm], ?_⟩
  change IsKnn n k dist (S.sort Neighbor.lt ((A.nth Neighbor.lt (min k n - 1) (all n dist)).take (min k n)))
  have hlen : (all n dist).length = n := by simp [all]
  obtain ⟨m, hmm⟩ : ∃ m, min k n = m + 1 := ⟨min k n - 1, by omega⟩
  have hmn : m < (all n dist).length := by omega
  rw [hmm, Nat.add_sub_cancel]
  have hp := A.nth_perm Neighbor.lt m (all n dist) strictWeak_neighborLt
  have hs := A.nth_split Neighbor.lt m (all n dist) strictWeak_neighborLt hmn
  have hmin := A.nth_min Neighbor.lt m (all n dist) strictWeak_neighborLt hmn
  revert hp hs hmin
  generalize A.nth Neighbor.lt m (all n dist) = l
  intro hp hs hmin
  have hl : m < l.length := by rw [hp.length_eq]; exact hmn
  have hsp := S.sort_perm Neighbor.lt (l.take (m + 1)) strictWeak_neighborLt
  refine ⟨?_, ?_, l.drop (m + 1), ?_, ?_⟩
  · rw [hsp.length_eq, List.length_take, hmm]; omega
  · refine (S.sort_sorted Neighbor.lt _ strictWeak_neighborLt).imp fun h => ?_
    exact not_lt.1 (of_decide_eq_false h)
  · exact (hsp.append_right _).trans (by rw [List.take_append_drop]; exact hp)
  · intro a ha b hb
    rw [hsp.mem_iff, List.take_add_one, List.getElem?_eq_getElem hl] at ha
    have hb' : b ∈ l.drop m := List.drop_subset_drop_left _ (Nat.le_succ m) hb
    rcases List.mem_append.1 ha with ha | ha
    · exact not_lt.1 (of_decide_eq_false (hs a ha b hb'))
    · simp at ha
      subst ha
      exact not_lt.1 (of_decide_eq_false (hmin _ (List.getElem?_eq_getElem hl) b hb'))

/-- Without points or for `k = 0` the reference moves its iterator before the beginning. -/
theorem c99_reference_false (A : StdNth (Neighbor α)) (S : StdSort (Neighbor α)) (k : Nat) (h : k = 0 ∨ n = 0) :
    searchKnn A S n k dist = .ub := by
  unfold searchKnn
  rw [if_pos (by omega)]

theorem testKnn_iff (A : StdNth (Neighbor α)) (S : StdSort (Neighbor α)) (floatEq floatLe : α → α → Bool) {k : Nat}
    {compare : List (Neighbor α)} (h : searchKnn A S n k dist = .ok compare) (exact apprx : List (Neighbor α)) :
    testKnn A S floatEq floatLe n k dist exact apprx = .ok true ↔
      compare.length = exact.length ∧ compare.length ≤ apprx.length ∧
      (∀ p ∈ exact.zip compare, floatEq p.1.distance p.2.distance = true) ∧
      ∀ p ∈ apprx.zip exact, floatLe p.1.distance p.2.distance = true := by
  unfold testKnn
  rw [h]
  simp only [Outcome.bind]
  split
  · split
    · simp_all
    · simp_all
  · simp_all

/-- An approximate search that reports fewer neighbors than the exact one is not rejected: `test_knn` reads behind
its results. -/
theorem c99_knn_short_false (A : StdNth (Neighbor α)) (S : StdSort (Neighbor α)) (floatEq floatLe : α → α → Bool) {k : Nat}
    (hk : 0 < k) (hn : 0 < n) (exact apprx : List (Neighbor α)) (h1 : exact.length = min k n)
    (h2 : apprx.length < exact.length) : testKnn A S floatEq floatLe n k dist exact apprx = .ub := by
  obtain ⟨out, h, ho⟩ := c99_reference (dist := dist) A S k hk hn
  have hlen : out.length = min k n := ho.length
  unfold testKnn
  rw [h]
  simp only [Outcome.bind]
  rw [if_pos (by omega), if_neg (by omega)]

/-- Exact results that are genuine (distinct points with their distances) pass `test_knn` with an exact comparison
exactly if they are the nearest neighbors in order; the approximate ones are compared with them only. -/
theorem c99_knn_partial (A : StdNth (Neighbor α)) (S : StdSort (Neighbor α)) (floatLe : α → α → Bool) (k : Nat)
    (hk : 0 < k) (hn : 0 < n) (exact apprx : List (Neighbor α)) (hd : (exact.map Neighbor.index).Nodup)
    (hg : ∀ a ∈ exact, a.index < n ∧ a.distance = dist a.index) :
    testKnn A S (fun a b => decide (a = b)) floatLe n k dist exact apprx = .ok true ↔
      IsKnn n k dist exact ∧ min k n ≤ apprx.length ∧
        ∀ p ∈ apprx.zip exact, floatLe p.1.distance p.2.distance = true := by
  obtain ⟨compare, h1, h2⟩ := c99_reference (n := n) (dist := dist) A S k hk hn
  rw [testKnn_iff A S _ _ h1, h2.length]
  have hmap : ∀ l l' : List (Neighbor α), l'.length = l.length →
      ((∀ p ∈ l.zip l', decide (p.1.distance = p.2.distance) = true) ↔
        l.map Neighbor.distance = l'.map Neighbor.distance) := by
    intro l
    induction l with
    | nil => intro l' h; simp at h; subst h; simp
    | cons a l ih =>
      intro l' h
      obtain ⟨b, l', rfl⟩ := List.exists_cons_of_length_eq_add_one (h.trans (List.length_cons))
      rw [List.zip_cons_cons, List.forall_mem_cons, ih l' (by simpa using h)]
      simp
  constructor
  · rintro ⟨g1, g2, g3, g4⟩
    rw [hmap _ _ (by rw [h2.length, g1])] at g3
    refine ⟨⟨g1.symm, ?_, ?_⟩, g2, g4⟩
    · have := h2.sorted
      rw [← List.pairwise_map (f := Neighbor.distance) (R := (· ≤ ·)), ← g3] at this
      exact List.pairwise_map.1 this
    · have hsub : exact.Subperm (all n dist) := by
        refine (List.Nodup.of_map _ hd).subperm fun a ha => ?_
        exact List.mem_map.2 ⟨a.index, List.mem_range.2 (hg a ha).1, by rw [← (hg a ha).2]⟩
      obtain ⟨l, hl, hs⟩ := hsub
      obtain ⟨rest, hr⟩ := hs.exists_perm_append
      replace hr := hr.trans (hl.append_right rest)
      refine ⟨rest, hr.symm, ?_⟩
      -- the distances left out are the same ones for both lists
      obtain ⟨rest', hr', hle⟩ := h2.rest
      have hperm : (rest.map Neighbor.distance).Perm (rest'.map Neighbor.distance) := by
        have := (hr.symm.trans hr'.symm).map Neighbor.distance
        rw [List.map_append, List.map_append, g3] at this
        exact (List.perm_append_left_iff _).1 this
      intro a ha b hb
      obtain ⟨a', ha', hea⟩ := List.mem_map.1 (g3 ▸ List.mem_map_of_mem (f := Neighbor.distance) ha)
      obtain ⟨b', hb', heb⟩ := List.mem_map.1 (hperm.mem_iff.1 (List.mem_map_of_mem (f := Neighbor.distance) hb))
      rw [← hea, ← heb]
      exact hle a' ha' b' hb'
  · rintro ⟨g1, g2, g3⟩
    refine ⟨g1.length.symm, g2, ?_, g3⟩
    rw [hmap _ _ (by rw [h2.length, g1.length]), g1.map_distance, h2.map_distance]

end

/-- C99 is false for `test_knn`: the indices are not looked at. Here both results name point 0, and the approximate
ones are not even points of the set. -/
theorem c99_knn_false (A : StdNth (Neighbor ℚ)) (S : StdSort (Neighbor ℚ)) :
    testKnn A S (fun a b => decide (a = b)) (fun a b => decide (a ≤ b)) 2 2 (fun i => i) [⟨0, 0⟩, ⟨0, 1⟩]
      [⟨7, -1⟩, ⟨7, -1⟩] = .ok true ∧ ¬ IsKnn 2 2 (fun i => (i : ℚ)) [⟨0, 0⟩, ⟨0, 1⟩] := by
  constructor
  · obtain ⟨compare, h1, h2⟩ := c99_reference (n := 2) (dist := fun i => (i : ℚ)) A S 2 (by omega) (by omega)
    rw [testKnn_iff A S _ _ h1]
    have hk : IsKnn 2 2 (fun i => (i : ℚ)) [⟨0, 0⟩, ⟨1, 1⟩] :=
      ⟨rfl, by simp, [], by simp [all, List.range_succ], by simp⟩
    have hm := h2.map_distance.trans hk.map_distance.symm
    obtain ⟨a, b, rfl⟩ : ∃ a b, compare = [a, b] := by
      have := h2.length
      match compare, this with
      | [a, b], _ => exact ⟨a, b, rfl⟩
    simp at hm
    simp [hm.1, hm.2]
  · intro h
    obtain ⟨rest, hr, -⟩ := h.rest
    have hnd := (hr.map Neighbor.index).nodup_iff.2 (by decide +kernel)
    simp at hnd

section
variable {α : Type} [Field α] [LinearOrder α] [IsStrictOrderedRing α] {d : Nat} {N : Num α} {pts : Nat → Pt α d}
  {n : Nat} {o : BuildOpts α d} {fuel : Nat}

/-- Right results pass `test_knn`. -/
theorem c99_knn_right {dist : Nat → α} (A : StdNth (Neighbor α)) (S : StdSort (Neighbor α))
    (floatEq floatLe : α → α → Bool) (hrefl : ∀ a, floatEq a a = true) (hle : ∀ a b, a ≤ b → floatLe a b = true)
    (k : Nat) (hk : 0 < k) (hn : 0 < n) (e : α) (he : 1 ≤ e) (exact apprx : List (Neighbor α))
    (h1 : IsKnn n k dist exact) (h2 : IsApproxKnn n k dist e apprx) :
    testKnn A S floatEq floatLe n k dist exact apprx = .ok true := by
  obtain ⟨compare, g1, g2⟩ := c99_reference (n := n) (dist := dist) A S k hk hn
  have he0 : 0 < e := one_pos.trans_le he
  rw [testKnn_iff A S _ _ g1]
  refine ⟨g2.length.trans h1.length.symm, (g2.length.trans h2.length.symm).le, fun p hp => ?_, fun p hp => ?_⟩
  · obtain ⟨i, hi, rfl⟩ := List.mem_iff_getElem.1 hp
    rw [List.getElem_zip]
    rw [List.length_zip] at hi
    have e1 := congrArg (fun l => l[i]?) (h1.map_distance.trans g2.map_distance.symm)
    simp only [List.getElem?_map] at e1
    rw [List.getElem?_eq_getElem (by omega), List.getElem?_eq_getElem (by omega)] at e1
    simp only [Option.map_some, Option.some.injEq] at e1
    dsimp only
    rw [e1]
    exact hrefl _
  · obtain ⟨i, hi, rfl⟩ := List.mem_iff_getElem.1 hp
    rw [List.getElem_zip]
    rw [List.length_zip] at hi
    refine hle _ _ ?_
    have hs : i < (smallest n k dist).length := by
      rw [← h1.map_distance, List.length_map]; omega
    have e1 := congrArg (fun l => l[i]?) h1.map_distance
    simp only [List.getElem?_map] at e1
    rw [List.getElem?_eq_getElem (by omega), List.getElem?_eq_getElem hs] at e1
    simp only [Option.map_some, Option.some.injEq] at e1
    have e2 := h2.ratio i (by omega) hs
    have e3 := (h2.genuine apprx[i] (List.getElem_mem _)).2
    dsimp only
    rw [e1]
    rw [← e3, mul_comm] at e2
    exact le_of_mul_le_mul_left e2 he0

/-- The tree passes `test_knn` (exact arithmetic). -/
theorem c99_knn_tree (A : StdNth (Neighbor α)) (S : StdSort (Neighbor α))
    (floatEq floatLe : α → α → Bool) (hrefl : ∀ a, floatEq a a = true) (hle : ∀ a b, a ≤ b → floatLe a b = true)
    {T : KdTree α d (Branch1 α d)} (h : KdTree.make (euclideanTag α d) (metricL2Sq α d) N pts n o fuel = .ok T)
    (hR : Representable N pts n o) (hn : 0 < n) (q : Pt α d) (hbig : ∀ i < n, Spec.l2Sq q (pts i) < N.big)
    (k : Nat) (hk : 0 < k) (e : α) (he : 1 ≤ e) (prior prior' : List (Neighbor α)) :
    ∃ exact apprx, T.searchKnn q k prior = .ok exact ∧ T.searchKnnApprox q k e prior' = .ok apprx ∧
      testKnn A S floatEq floatLe n k (fun i => Spec.l2Sq q (pts i)) exact apprx = .ok true := by
  obtain ⟨x, h1, h2, -⟩ := c02_knn_l2 h hR hn q hbig k hk prior
  obtain ⟨y, h3, h4⟩ := c06_knn_approx_l2 h hR hn q e he hbig k hk prior'
  exact ⟨x, y, h1, h3, c99_knn_right A S floatEq floatLe hrefl hle k hk hn e he x y h2 h4⟩

/-- The tree passes `test_radius` exactly if no point is at the distance `radius` (exact arithmetic). -/
theorem c99_radius_tree (floatEq : α → α → Bool) (hrefl : ∀ a, floatEq a a = true)
    {T : KdTree α d (Branch1 α d)} (h : KdTree.make (euclideanTag α d) (metricL2Sq α d) N pts n o fuel = .ok T)
    (hR : Representable N pts n o) (hn : 0 < n) (q : Pt α d) (sorter : StdSort (Neighbor α)) (r e : α) (he : 1 ≤ e)
    (prior prior' : List (Neighbor α)) :
    testRadius floatEq n (fun i => Spec.l2Sq q (pts i)) r e (T.searchRadius sorter q r prior false)
      (T.searchRadiusApprox sorter q r e prior' false) = .ok true ↔ ∀ i < n, Spec.l2Sq q (pts i) ≠ r :=
  c99_radius_right floatEq hrefl r e _ _ (c04_radius_l2 h hR hn q sorter r prior false).1
    (c07_radius_approx_l2 h hR hn q sorter r e he prior' false).1

end

/-! ## Examples -/

/-- Points 0, 1, 2, 4 on a line. -/
def line4 : Nat → Pt ℚ 1
  | 0 => ![0]
  | 1 => ![1]
  | 2 => ![2]
  | _ => ![4]

/-- C99 is false for `test_radius`: the radius search is right, but a point at the distance `radius` is not reported
(`radius` 1, query 2) and the test fails. For the radius 2 (squared distances) the test passes. -/
theorem c99_radius_false :
    ∃ T, KdTree.make (euclideanTag ℚ 1) (metricL2Sq ℚ 1) Ref.ratNum line4 4 (Ref.optsSliding ℚ 1) 20 = .ok T ∧
      IsRadius 4 (fun i => l2Sq ![2] (line4 i)) 1 (T.searchRadius (Ref.sorter _) ![2] 1 [] false) ∧
      (testRadius (fun a b => decide (a = b)) 4 (fun i => l2Sq ![2] (line4 i)) 1 (9 / 4)
        (T.searchRadius (Ref.sorter _) ![2] 1 [] false)
        (T.searchRadiusApprox (Ref.sorter _) ![2] 1 (9 / 4) [] false) = .ok false) ∧
      testRadius (fun a b => decide (a = b)) 4 (fun i => l2Sq ![2] (line4 i)) 2 (9 / 4)
        (T.searchRadius (Ref.sorter _) ![2] 2 [] false)
        (T.searchRadiusApprox (Ref.sorter _) ![2] 2 (9 / 4) [] false) = .ok true := by
  obtain ⟨T, h1, h2⟩ := Outcome.exists_of_check
    (x := KdTree.make (euclideanTag ℚ 1) (metricL2Sq ℚ 1) Ref.ratNum line4 4 (Ref.optsSliding ℚ 1) 20)
    (p := fun T => decide ((T.searchRadius (Ref.sorter _) ![2] 1 [] false) = [⟨2, 0⟩] ∧
      (T.searchRadiusApprox (Ref.sorter _) ![2] 1 (9 / 4) [] false) = [⟨2, 0⟩])) (by decide +kernel)
  have hR : Representable Ref.ratNum line4 4 (Ref.optsSliding ℚ 1) :=
    ⟨by decide +kernel, by unfold InRange; decide +kernel, trivial, by simp [Ref.optsSliding]⟩
  refine ⟨T, h1, (c04_radius_l2 h1 hR (by omega) ![2] (Ref.sorter _) 1 [] false).1, ?_, ?_⟩
  · rw [decide_eq_true_eq] at h2
    rw [h2.1, h2.2]
    unfold testRadius
    rw [if_pos (by decide)]
    refine congrArg Outcome.ok ?_
    decide +kernel
  · exact (c99_radius_tree (fun a b => decide (a = b)) (fun a => by simp) h1 hR (by omega) ![2] (Ref.sorter _) 2 (9 / 4)
      (by norm_num) [] []).2 (by decide +kernel)

/-- An implementation of `std::nth_element` that sorts. -/
def nthBySort (τ : Type) : StdNth τ where
  nth lt _ l := Ref.isort lt l
  nth_perm lt n l h := (Ref.sorter τ).sort_perm lt l h
  nth_split lt n l h hn := by
    have hs := (Ref.sorter τ).sort_sorted lt l h
    intro x hx y hy
    change (Ref.isort lt l).Pairwise _ at hs
    rw [← List.take_append_drop n (Ref.isort lt l), List.pairwise_append] at hs
    exact hs.2.2 x hx y hy
  nth_min lt n l h hn := by
    have hs := (Ref.sorter τ).sort_sorted lt l h
    intro x hx y hy
    change (Ref.isort lt l).Pairwise _ at hs
    obtain ⟨hlt, rfl⟩ := List.getElem?_eq_some_iff.1 hx
    have hd := hs.drop (i := n)
    rw [List.drop_eq_getElem_cons hlt] at hd hy
    rcases List.mem_cons.1 hy with rfl | hy
    · exact h.irrefl _
    · exact (List.pairwise_cons.1 hd).1 y hy

/-- `test_knn` accepts the right results, rejects wrong ones. -/
example :
    testKnn (nthBySort _) (Ref.sorter _) (fun a b => decide (a = b)) (fun a b => decide (a ≤ b)) 4 2
      (fun i => l2Sq ![2] (line4 i)) [⟨2, 0⟩, ⟨1, 1⟩] [⟨2, 0⟩, ⟨1, 4 / 9⟩] = .ok true ∧
    testKnn (nthBySort _) (Ref.sorter _) (fun a b => decide (a = b)) (fun a b => decide (a ≤ b)) 4 2
      (fun i => l2Sq ![2] (line4 i)) [⟨2, 0⟩, ⟨0, 4⟩] [⟨2, 0⟩, ⟨1, 4 / 9⟩] = .ok false ∧
    testBox 4 (fun i => (⟨![1], ![3]⟩ : Box ℚ 1).containsPt (line4 i)) [2, 1] = .ok true ∧
    testBox 4 (fun i => (⟨![1], ![3]⟩ : Box ℚ 1).containsPt (line4 i)) [2] = .ok false := by
  have key : ∀ (x : Outcome Bool) (b : Bool), x.check (fun c => c == b) = true → x = .ok b := by
    intro x b h
    obtain ⟨c, h1, h2⟩ := Outcome.exists_of_check h
    rw [h1, beq_iff_eq.1 h2]
  exact ⟨key _ _ (by decide +kernel), key _ _ (by decide +kernel), key _ _ (by decide +kernel),
    key _ _ (by decide +kernel)⟩

end Pico.Props
