import Verif.Props.MachineInt
import Verif.Props.MidpointFloat

/-!
# C23 with integers: the midpoint rule never separates anything
-/

namespace Pico.Props

open Pico Spec MachineInt

/-- C23 is false for every integer type, whatever overflow does: `scalar_type(0.5)` is zero, the split value is the lower
side of the box, and more than `m` points, not all of them equal, are never separated. No difference of coordinates
overflows here. -/
theorem c23_int_false (I : MachineInt) {d : Nat} {β : Type} (tag : SpaceTag I.F d β) (M : Metric I.F d)
    {pts : Nat → Pt I.F d} {n : Nat} {o : BuildOpts I.F d} (hr : o.rule = .midpoint) (hb : o.bounds = .fromSpace) {m : Nat}
    (hs : o.stop = .maxLeafSize m) (hm : m < 2 ^ (o.indexBits - 1)) (hn : m < n) {a b : I.F} (hab : b.1 - a.1 ≤ I.hi)
    (hp : ∀ i < n, ∀ j, a ≤ pts i j ∧ pts i j ≤ b) {i k : Nat} (hi : i < n) (hk : k < n) {j : Fin d}
    (hik : pts i j < pts k j) (fuel : Nat) : KdTree.make tag M I.num pts n o fuel = .oof := by
  have hmem := boxFromBounds_fromSpace_mem I.num pts n
  have hlo : I.num.low ≤ b := b.2.1
  have hhi : a ≤ I.num.big := a.2.2
  have hw : Within a b (boxFromBounds I.num pts n .fromSpace) :=
    boxFromBounds_within (by omega) ⟨hlo, hhi⟩ hp (by simp)
  cases hside : (boxFromBounds I.num pts n .fromSpace).maxSide I.num with
  | mk dim delta =>
  cases dim with
  | none =>
    exfalso
    have h1 := maxSide_none (N := I.num) (b := boxFromBounds I.num pts n .fromSpace) (by rw [hside]) j
    have h2 := (hmem i hi j).1
    have h3 := (hmem k hk j).2
    have h4 := (hw j).1
    have h5 := (hw j).2
    rw [le_iff] at h2 h3
    rw [lt_iff] at hik
    have h6 : a.1 ≤ ((boxFromBounds I.num pts n .fromSpace).min j).1 := h4.1
    have h7 : ((boxFromBounds I.num pts n .fromSpace).max j).1 ≤ b.1 := h5.2
    have h8 := I.lo_le
    rw [le_iff, val_sub, I.exact _ (by omega) (by omega)] at h1
    have h9 : I.num.low.1 = I.lo := rfl
    omega
  | some c =>
    refine c23_stuck_false tag M hr hs hm hn (j := c) (delta := delta) (by rw [hb]; exact hside) ?_ (fun i hi => ?_) fuel
    · apply Subtype.ext
      rw [val_add]
      have : (I.num.mulHalf delta).1 = 0 := rfl
      rw [this, zero_add]
      exact I.exact _ ((boxFromBounds I.num pts n o.bounds).min c).2.1 ((boxFromBounds I.num pts n o.bounds).min c).2.2
    · rw [hb]
      exact (hmem i hi c).1

/-- Three numbers of the type `int`. -/
def intPts3 : Nat → Pt int32.F 1 := fun i _ => int32.ofInt ([1, 4, 9].getD i 0)

/-- The hypotheses can be met: 1, 4 and 9 as `int`, leaves of one point. -/
example (fuel : Nat) : KdTree.make (euclideanTag int32.F 1) (metricL1 int32.F 1) int32.num intPts3 3
    ⟨Ref.std, .midpoint, .maxLeafSize 1, .fromSpace, 32⟩ fuel = .oof := by
  refine c23_int_false int32 _ _ rfl rfl rfl (by decide) (by decide) (a := int32.ofInt 1) (b := int32.ofInt 9)
    (by decide +kernel) ?_ (i := 0) (k := 1) (by decide) (by decide) (j := 0) (by decide +kernel) fuel
  have : ∀ i < 3, ∀ j : Fin 1, int32.ofInt 1 ≤ intPts3 i j ∧ intPts3 i j ≤ int32.ofInt 9 := by decide +kernel
  exact this

end Pico.Props
