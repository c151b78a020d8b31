import Verif.Proof.Work
import Verif.Props.Builder
import Mathlib.Data.Nat.Log

/-!
# C72: depth of the tree and work of the construction

`median_max_side_t` and `sliding_midpoint_max_side_t` are documented to build a tree in O(n log n)
time (kd_tree_builder.hpp:32-66).  Every call of `create_node` looks at all points of its node
(`std::partition`, `std::nth_element`, `compute_bounding_box`), so the number of points looked at is
at least `visits`, the sum of the sizes of all nodes.
-/

set_option linter.unusedSectionVars false

namespace Pico.Props

open Pico Spec

section
variable {α : Type} [LinearOrder α] [Add α] [Sub α] {d : Nat} {β : Type}
  {tag : SpaceTag α d β} {M : Metric α d} {N : Num α} {pts : Nat → Pt α d} {n : Nat}
  {o : BuildOpts α d} {fuel : Nat} {T : KdTree α d β} {m : Nat}

/-- C72 (partial: the median rule; missing: the sliding midpoint rule, see `c72_false`): the sizes
of all nodes add up to at most `n * (k + 1)` if `n ≤ m * 2 ^ k`. -/
theorem c72_median_partial (h : KdTree.make tag M N pts n o fuel = .ok T) (hr : o.rule = .median)
    (hs : o.stop = .maxLeafSize m) (hm : m < 2 ^ (o.indexBits - 1)) (k : Nat) (hk : n ≤ m * 2 ^ k) :
    visits T.data.root ≤ n * (k + 1) := by
  obtain ⟨box, hc⟩ := created_of_make h
  have h1 := hc.height_le hr hs hm k (by simpa using hk)
  have h2 := hc.size_eq
  rw [List.length_range] at h2
  refine (visits_le _).trans ?_
  rw [h2]
  exact Nat.mul_le_mul_left _ (by omega)

/-- C72 (partial, as above): what remains true of the sliding midpoint rule.  The height is at most
`n - m`, and the sizes of all nodes add up to at most `n * (n - m + 1)`. -/
theorem c72_sliding_partial (h : KdTree.make tag M N pts n o fuel = .ok T) (hr : o.rule ≠ .midpoint)
    (hs : o.stop = .maxLeafSize m) (hm1 : 1 ≤ m) (hm : m < 2 ^ (o.indexBits - 1)) :
    height T.data.root ≤ n - m ∧ visits T.data.root ≤ n * (n - m + 1) := by
  obtain ⟨box, hc⟩ := created_of_make h
  have h1 := hc.height_le_sub hr hm1 hs hm
  have h2 := hc.size_eq
  rw [List.length_range] at h1 h2
  refine ⟨h1, (visits_le _).trans ?_⟩
  rw [h2]
  exact Nat.mul_le_mul_left _ (by omega)

/-- C72: with the sliding midpoint rule, `c` points with the same coordinates make the tree at least
`c - m` levels deep and cost quadratic work, whatever the other points and the scalar type are. -/
theorem c72_duplicates (h : KdTree.make tag M N pts n o fuel = .ok T) (hr : o.rule = .sliding)
    (hs : o.stop = .maxLeafSize m) (hm : m < 2 ^ (o.indexBits - 1)) {p : Pt α d} {dup : List Nat}
    (hd : dup.Nodup) (hdup : ∀ i ∈ dup, i < n ∧ ∀ j, pts i j = p j) :
    dup.length - m ≤ height T.data.root ∧
      dup.length * (dup.length + 1) ≤ 2 * visits T.data.root + m * (m + 1) := by
  obtain ⟨box, hc⟩ := created_of_make h
  have hle : dup.length ≤ copies pts p (List.range n) := by
    have hsub : dup.Subperm (List.range n) :=
      hd.subperm fun i hi => List.mem_range.2 (hdup i hi).1
    have := hsub.countP_le (fun i => decide (∀ j, pts i j = p j))
    rwa [List.countP_eq_length.2 (fun i hi => by simpa using (hdup i hi).2)] at this
  have h1 := hc.copies_le_height hr hs hm p
  have h2 := hc.copies_visits hr hs hm p
  change copies pts p (List.range n) ≤ _ at h1
  change copies pts p (List.range n) * (copies pts p (List.range n) + 1) ≤ _ at h2
  have := Nat.mul_le_mul hle (Nat.succ_le_succ hle)
  simp only [Nat.succ_eq_add_one] at this
  exact ⟨by omega, by omega⟩

end

/-- C72 is false for the sliding midpoint rule: for every constant `c` there are points (all equal)
for which the finished construction looks at more than `c * n * (log₂ n + 1)` points, and the tree
is `n - 1` levels deep. -/
theorem c72_false (c : Nat) :
    ∃ n T fuel, KdTree.make (euclideanTag Rat 2) (metricL2Sq Rat 2) Ref.ratNum (fun _ => ![1, 2]) n
        (Ref.optsSliding Rat 2) fuel = .ok T ∧
      height T.data.root = n - 1 ∧ c * n * (Nat.log 2 n + 1) < visits T.data.root := by
  obtain ⟨t, ht⟩ : ∃ t, t = 4 * c + 2 := ⟨_, rfl⟩
  have hn : 0 < 2 ^ (2 * t) := Nat.two_pow_pos _
  obtain ⟨fuel, T, hT⟩ := c22_terminates_partial (n := 2 ^ (2 * t)) (N := Ref.ratNum)
    (pts := fun _ => ![1, 2]) (o := Ref.optsSliding Rat 2) (euclideanTag Rat 2) (metricL2Sq Rat 2)
    (a := 1) (b := 2)
    (splitSafe_field (fun x => by simp only [Ref.ratNum]; ring) (fun x => rfl)
      (by norm_num [Ref.ratNum]))
    (by decide) hn (by simp [Ref.optsSliding])
    (by intro m hm; simp only [Ref.optsSliding, Stop.maxLeafSize.injEq] at hm; subst hm
        exact ⟨le_rfl, by norm_num [Ref.optsSliding]⟩)
    (by intro i _ j; fin_cases j <;> norm_num)
    (by norm_num [Ref.ratNum]) (by simp [Ref.optsSliding])
  have h := hT fuel le_rfl
  have h1 := c72_sliding_partial h (m := 1) (by simp [Ref.optsSliding]) rfl le_rfl
    (by norm_num [Ref.optsSliding])
  obtain ⟨h2, h3⟩ := c72_duplicates h (m := 1) rfl rfl (by norm_num [Ref.optsSliding])
    (p := ![1, 2]) (dup := List.range (2 ^ (2 * t))) List.nodup_range
    (fun i hi => ⟨List.mem_range.1 hi, fun _ => rfl⟩)
  rw [List.length_range] at h2 h3
  refine ⟨_, T, fuel, h, le_antisymm h1.1 h2, ?_⟩
  rw [Nat.log_pow (by decide)]
  have e : 2 ^ (2 * t) = 2 ^ t * 2 ^ t := by rw [two_mul, pow_add]
  have h4 : 2 * c * (2 * t + 1) + 2 ≤ 2 ^ (2 * t) := by
    rw [e]
    have l1 : t + 1 ≤ 2 ^ t := Nat.lt_two_pow_self
    have l2 : 4 * c + 2 ≤ 2 ^ t := by omega
    have := Nat.mul_le_mul l2 l1
    have e2 : (4 * c + 2) * (t + 1) = 2 * c * (2 * t + 1) + 2 * c + 2 * t + 2 := by ring
    omega
  generalize 2 ^ (2 * t) = n at *
  have := Nat.mul_le_mul_left n h4
  have e3 : n * (2 * c * (2 * t + 1) + 2) = 2 * (c * n * (2 * t + 1)) + 2 * n := by ring
  have e4 : n * (n + 1) = n * n + n := by ring
  omega

/-! ## Examples -/

/-- Six equal points, leaves of one point: five levels, `6 + 5 + 4 + 3 + 2` and six leaves. -/
example : ∃ T, KdTree.make (euclideanTag Int 2) (metricL1 Int 2) Ref.intNum (fun _ => ![3, 4]) 6
    (Ref.optsSliding Int 2) 10 = .ok T ∧ height T.data.root = 5 ∧ visits T.data.root = 26 := by
  obtain ⟨T, h, hp⟩ := Outcome.exists_of_check
    (x := KdTree.make (euclideanTag Int 2) (metricL1 Int 2) Ref.intNum (fun _ => ![3, 4]) 6
      (Ref.optsSliding Int 2) 10)
    (p := fun T => decide (height T.data.root = 5 ∧ visits T.data.root = 26)) (by decide +kernel)
  have := of_decide_eq_true hp
  exact ⟨T, h, this.1, this.2⟩

/-- The hypotheses of `c72_median_partial`: five points, leaves of at most two, `5 ≤ 2 * 2 ^ 2`. -/
example : ∃ T, KdTree.make (euclideanTag Int 2) (metricL1 Int 2) Ref.intNum Ref.pts5 5
    (Ref.optsMedian Int 2) 10 = .ok T ∧ visits T.data.root = 13 ∧ 5 ≤ 2 * 2 ^ 2 := by
  obtain ⟨T, h, hp⟩ := Outcome.exists_of_check
    (x := KdTree.make (euclideanTag Int 2) (metricL1 Int 2) Ref.intNum Ref.pts5 5
      (Ref.optsMedian Int 2) 10)
    (p := fun T => decide (visits T.data.root = 13)) (by decide +kernel)
  exact ⟨T, h, of_decide_eq_true hp, by decide⟩

end Pico.Props
