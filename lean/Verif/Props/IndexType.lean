import Verif.Model.IndexType
import Verif.Props.Builder
import Verif.Props.Work

/-!
# The index type

C93: a tree can hold as many points as its index type can number.
-/

set_option linter.unusedSectionVars false

namespace Pico.Props

open Pico Spec

theorem iotaInt_ok (w : Nat) (count : Nat) (v : Nat) (h : (v + count : Nat) < 2 ^ 31) :
    iotaInt w count v = .ok ((List.range' v count).map (castIndex w)) := by
  induction count generalizing v with
  | zero => rfl
  | succ c ih =>
    have h1 : (v : Int) < intMax := by unfold intMax; omega
    have h2 := ih (v + 1) (by omega)
    rw [iotaInt, if_pos h1]
    push_cast at h2
    rw [h2]
    rfl

theorem iotaInt_ub (w : Nat) (count : Nat) (v : Nat) (hv : v < 2 ^ 31)
    (h : 2 ^ 31 ≤ v + count) : iotaInt w count v = .ub := by
  induction count generalizing v with
  | zero => omega
  | succ c ih =>
    rw [iotaInt]
    split
    · next h1 =>
      unfold intMax at h1
      have h2 := ih (v + 1) (by omega) (by omega)
      push_cast at h2
      rw [h2]
      rfl
    · rfl

theorem tiles_mem_le {a b : Nat} {l : List (Nat × Nat)} (h : Tiles a l b) :
    ∀ r ∈ l, a ≤ r.1 ∧ r.1 ≤ r.2 ∧ r.2 ≤ b := by
  induction l generalizing a with
  | nil => simp
  | cons x l ih =>
    obtain ⟨x, y⟩ := x
    obtain ⟨h3, h4, h5⟩ := h
    have h6 := tiles_le h5
    intro r hr
    rcases List.mem_cons.mp hr with rfl | hr
    · exact ⟨by omega, h4, h6⟩
    · have := ih h5 r hr
      omega

theorem tiles_last {a b : Nat} {l : List (Nat × Nat)} (h : Tiles a l b) (hab : a < b) :
    ∃ r ∈ l, r.2 = b := by
  induction l generalizing a with
  | nil => simp only [Tiles] at h; omega
  | cons x l ih =>
    obtain ⟨x, y⟩ := x
    obtain ⟨h3, h4, h5⟩ := h
    by_cases hy : y < b
    · obtain ⟨r, hr, h6⟩ := ih h5 hy
      exact ⟨r, List.mem_cons_of_mem _ hr, h6⟩
    · have := tiles_le h5
      exact ⟨(x, y), List.mem_cons_self, by simp; omega⟩

theorem castIndex_half {w : Nat} (hw : 1 ≤ w) : castIndex w (2 ^ (w - 1)) = -2 ^ (w - 1) := by
  obtain ⟨w, rfl⟩ : ∃ v, w = v + 1 := ⟨w - 1, by omega⟩
  have h1 : (2 : Int) ^ (w + 1) = 2 * 2 ^ w := by rw [pow_succ]; ring
  have h2 : (0 : Int) < 2 ^ w := by positivity
  unfold castIndex
  have h3 : ((2 ^ w : Nat) : Int) = -2 ^ w + ((2 ^ (w + 1) : Nat) : Int) * 1 := by
    push_cast
    rw [h1]
    ring
  rw [Nat.add_sub_cancel, h3, Int.add_mul_bmod_self_left]
  refine Int.bmod_eq_of_le ?_ ?_
  · push_cast; omega
  · push_cast; omega

section
variable {α : Type} [LinearOrder α] [Add α] [Sub α] {d : Nat} {β : Type}
  {tag : SpaceTag α d β} {M : Metric α d} {N : Num α} {pts : Nat → Pt α d} {n : Nat}
  {o : BuildOpts α d} {fuel : Nat} {T : KdTree α d β} {m w : Nat}

/-- C93 (partial: fewer than `2 ^ 31` points, and one fewer than an index type of less than 32 bits
can number; the rest is false, see `c93_false`, `c93_narrow`): the index vector starts as
`0, 1, …, n - 1`, and reading a leaf through its machine integer bounds gives, without undefined
behaviour, the points that the tree model puts into it. -/
theorem c93_partial (h : KdTree.make tag M N pts n o fuel = .ok T) (hi : n < 2 ^ 31)
    (hw : n < 2 ^ (w - 1)) :
    iotaInt w n 0 = .ok ((List.range n).map Int.ofNat) ∧
      ∀ r ∈ ranges T.data.root, leafBounds w r.1 r.2 = ((r.1 : Int), (r.2 : Int)) ∧
        scanLeaf n (T.data.indices.map Int.ofNat) (leafBounds w r.1 r.2) =
          .ok ((slice T.data.indices r.1 r.2).map Int.ofNat) := by
  obtain ⟨hp, ht, _⟩ := c16_partition h
  have hl := hp.length_eq
  rw [List.length_range] at hl
  refine ⟨?_, fun r hr => ?_⟩
  · have h1 := iotaInt_ok w n 0 (by omega)
    rw [Nat.cast_zero] at h1
    rw [h1, ← List.range_eq_range']
    congr 1
    refine List.map_congr_left fun i hi => ?_
    exact castIndex_eq ((List.mem_range.mp hi).trans hw)
  · obtain ⟨-, h2, h3⟩ := tiles_mem_le ht r hr
    have h4 : leafBounds w r.1 r.2 = ((r.1 : Int), (r.2 : Int)) := by
      unfold leafBounds
      rw [castIndex_eq (by omega), castIndex_eq (by omega)]
    refine ⟨h4, ?_⟩
    rw [h4]
    unfold scanLeaf
    have h5 : slice (T.data.indices.map Int.ofNat) r.1 r.2 =
        (slice T.data.indices r.1 r.2).map Int.ofNat := by
      simp [slice, List.map_take, List.map_drop]
    rw [if_pos (by simp only [List.length_map]; omega)]
    simp only [Int.toNat_natCast]
    rw [h5, if_pos]
    intro i hi
    obtain ⟨k, hk, rfl⟩ := List.mem_map.mp hi
    have : k ∈ T.data.indices := List.mem_of_mem_drop (List.mem_of_mem_take hk)
    have := List.mem_range.mp (hp.mem_iff.mp this)
    simp only [Int.ofNat_eq_natCast]
    omega

/-- C93 (partial, as above): nor does the depth counter, which has the index type, overflow. -/
theorem c93_depth_partial (h : KdTree.make tag M N pts n o fuel = .ok T) (hr : o.rule ≠ .midpoint)
    (hs : o.stop = .maxLeafSize m) (hm1 : 1 ≤ m) (hm : m < 2 ^ (o.indexBits - 1))
    (hw : n < 2 ^ (o.indexBits - 1)) : ∀ x ∈ leaves T.data.root, x.1 < 2 ^ (o.indexBits - 1) := by
  intro x hx
  have h1 := (c72_sliding_partial h hr hs hm1 hm).1
  have h2 := depth_le_height T.data.root 0 x hx
  omega

/-- C93: with as many points as an index type of `w` bits can number (`0 … 2 ^ (w - 1) - 1`), the
end of the last leaf is `-2 ^ (w - 1)` and reading that leaf is undefined behaviour. -/
theorem c93_narrow (h : KdTree.make tag M N pts n o fuel = .ok T) (hw : 1 ≤ w)
    (hn : n = 2 ^ (w - 1)) :
    ∃ r ∈ ranges T.data.root, (leafBounds w r.1 r.2).2 = -2 ^ (w - 1) ∧
      scanLeaf n (T.data.indices.map Int.ofNat) (leafBounds w r.1 r.2) = .ub := by
  obtain ⟨-, ht, -⟩ := c16_partition h
  have hpos : 0 < n := by rw [hn]; positivity
  obtain ⟨r, hr, h1⟩ := tiles_last ht hpos
  have h2 : (leafBounds w r.1 r.2).2 = -2 ^ (w - 1) := by
    unfold leafBounds
    rw [h1, hn, castIndex_half hw]
  refine ⟨r, hr, h2, ?_⟩
  unfold scanLeaf
  rw [if_neg]
  rw [h2]
  have : (0 : Int) < 2 ^ (w - 1) := by positivity
  omega

end

/-- C93 is false: with `2 ^ 31` points or more the first statement of the construction is undefined
behaviour, whatever the width of the index type (64 bits included). -/
theorem c93_false (w n : Nat) (h : 2 ^ 31 ≤ n) : iotaInt w n 0 = .ub := by
  have := iotaInt_ub w n 0 (by norm_num) (by omega)
  rwa [Nat.cast_zero] at this

/-- C93: with more points than an index type of `w` bits can number, the index vector starts with a
negative index in it. -/
theorem c93_wrap (w n : Nat) (hw : 1 ≤ w) (hn : 2 ^ (w - 1) < n) (hi : n < 2 ^ 31) :
    ∃ l, iotaInt w n 0 = .ok l ∧ -2 ^ (w - 1) ∈ l := by
  have h1 := iotaInt_ok w n 0 (by omega)
  rw [Nat.cast_zero] at h1
  refine ⟨_, h1, List.mem_map.mpr ⟨2 ^ (w - 1), ?_, castIndex_half hw⟩⟩
  rw [← List.range_eq_range']
  exact List.mem_range.mpr hn

/-! ## Concrete cases -/

example : iotaInt 8 3 0 = .ok [0, 1, 2] := by decide +kernel
example : iotaInt 2 4 0 = .ok [0, 1, -2, -1] := by decide +kernel
example : leafBounds 16 32767 32768 = (32767, -32768) := by decide +kernel
example : scanLeaf 3 [2, 0, 1] (leafBounds 8 1 3) = .ok [0, 1] := by decide +kernel

/-- A tree over three points and its leaves, read with an 8 bit index type. -/
example : ∃ T, KdTree.make (euclideanTag Rat 1) (metricL2Sq Rat 1) Ref.ratNum
      (fun i _ => (i : Rat)) 3 (Ref.optsSliding Rat 1) 10 = .ok T ∧
    (ranges T.data.root).map (fun r => scanLeaf 3 (T.data.indices.map Int.ofNat) (leafBounds 8 r.1 r.2)) =
      [.ok [0], .ok [1], .ok [2]] := by
  obtain ⟨T, h, hp⟩ := Outcome.exists_of_check (x := KdTree.make (euclideanTag Rat 1) (metricL2Sq Rat 1) Ref.ratNum
      (fun i _ => (i : Rat)) 3 (Ref.optsSliding Rat 1) 10) (p := fun T => decide
    ((ranges T.data.root).map (fun r => scanLeaf 3 (T.data.indices.map Int.ofNat) (leafBounds 8 r.1 r.2)) =
      [.ok [0], .ok [1], .ok [2]])) (by decide +kernel)
  exact ⟨T, h, of_decide_eq_true hp⟩

end Pico.Props
