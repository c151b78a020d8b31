import Verif.Props.TopoRounding
import Verif.Props.TrueDistance
import Verif.Props.UnitTests
import Mathlib.Algebra.Order.Group.MinMax

/-!
# C142: true distances on the circle

C70 compares a search on the circle with the computed distances.  Here the answers are compared with the arcs
between the angles themselves, without any rounding.
-/

namespace Pico.Props

open Pico Spec Gtest

section
variable {K : Type} [Field K] [LinearOrder K] [IsStrictOrderedRing K]

/-- The length of the shorter arc between two angles given in turns. -/
def shortArc (x y : K) : K := min |x - y| (1 - |x - y|)

/-- It is the smallest distance between two numbers that stand for these angles. -/
theorem shortArc_shortest {x y : K} (hx : 0 ≤ x ∧ x ≤ 1) (hy : 0 ≤ y ∧ y ≤ 1) :
    (∃ k : ℤ, shortArc x y = |x - y + k|) ∧ ∀ k : ℤ, shortArc x y ≤ |x - y + k| := by
  have h1 : |x - y| ≤ 1 := abs_le.2 ⟨by linarith [hx.1, hy.2], by linarith [hx.2, hy.1]⟩
  constructor
  · rcases le_total |x - y| (1 - |x - y|) with h | h
    · exact ⟨0, by simp [shortArc, min_eq_left h]⟩
    · rcases le_total 0 (x - y) with h0 | h0
      · refine ⟨-1, ?_⟩
        rw [shortArc, min_eq_right h, abs_of_nonneg h0, ← abs_neg, abs_of_nonneg] <;> push_cast
        · ring
        · rw [abs_of_nonneg h0] at h1; linarith
      · refine ⟨1, ?_⟩
        rw [shortArc, min_eq_right h, abs_of_nonpos h0, abs_of_nonneg] <;> push_cast
        · ring
        · rw [abs_of_nonpos h0] at h1; linarith
  · intro k
    by_cases hk : k = 0
    · simp [shortArc, hk]
    · refine (min_le_right _ _).trans ?_
      have h2 : (1 : K) ≤ |(k : K)| := by exact_mod_cast Int.one_le_abs hk
      have h3 : |(k : K)| ≤ |x - y + k| + |x - y| := by
        have := abs_sub (x - y + k) (x - y)
        simpa using this
      linarith

variable {R : Rounding K} {u : K}

/-- The computed distance is off by at most one rounding of a number below one, and its propagation. -/
theorem roundedCircle_error (hu : R.Error u) (hu0 : 0 ≤ u) (hone : R.rd 1 = 1) (q p : Pt R.F 1)
    (hq : 0 ≤ (q 0).1 ∧ (q 0).1 ≤ 1) (hp : 0 ≤ (p 0).1 ∧ (p 0).1 ≤ 1) :
    |roundedCircle R q p - shortArc (q 0).1 (p 0).1| ≤ u * (1 + u) := by
  set x := (q 0).1 - (p 0).1 with hx
  have hx1 : |x| ≤ 1 := abs_le.2 ⟨by linarith [hq.1, hp.2], by linarith [hq.2, hp.1]⟩
  have e1 : |R.rd x - x| ≤ u * |x| := by
    have := hu (q 0).1 (-(p 0).1) (q 0).2 (by rw [R.odd, (p 0).2])
    rwa [← sub_eq_add_neg, ← hx] at this
  have e2 : abs (|R.rd x| - |x|) ≤ u * |x| := (abs_abs_sub_abs_le _ _).trans e1
  set D := |R.rd x| with hD
  have hD1 : D ≤ 1 := by
    have h1 := R.mono x 1 (abs_le.1 hx1).2
    have h2 := R.mono (-1) x (abs_le.1 hx1).1
    rw [R.odd, hone] at h2
    rw [hone] at h1
    exact abs_le.2 ⟨h2, h1⟩
  have hD0 : R.rd D = D := by
    rcases abs_choice (R.rd x) with h | h
    · rw [hD, h, R.idem]
    · rw [hD, h, R.odd, R.idem]
  have e3 : |R.rd (1 - D) - (1 - D)| ≤ u * (1 - D) := by
    have := hu 1 (-D) hone (by rw [R.odd, hD0])
    rwa [← sub_eq_add_neg, abs_of_nonneg (by linarith : 0 ≤ 1 - D)] at this
  have hux : u * |x| ≤ u := by nlinarith [abs_nonneg x]
  have hb : u * |x| ≤ u * (1 + u) := by nlinarith
  have e4 : |R.rd (1 - D) - (1 - |x|)| ≤ u * (1 + u) := by
    have h1 := abs_le.1 e2
    have h2 := abs_le.1 e3
    have h3 : u * (1 - D) ≤ u * (1 - |x| + u * |x|) := mul_le_mul_of_nonneg_left (by linarith) hu0
    have h4 : u * (u * |x|) ≤ u * u := mul_le_mul_of_nonneg_left hux hu0
    rw [abs_le]
    constructor <;> nlinarith
  have e5 := e2.trans hb
  rw [roundedCircle, shortArc, hone]
  exact (abs_min_sub_min_le_max _ _ _ _).trans (max_le e5 e4)

/-- What the searches on the circle mean for the arcs themselves, up to an absolute error `δ` of the distances. -/
structure ArcsUpTo (T : KdTree R.F 1 (Branch2 R.F 1)) (q : Pt R.F 1) (n : Nat) (a : Nat → K) (δ : K) : Prop where
  nn : ∀ nn, (T.searchNn q nn).index < n ∧ |(T.searchNn q nn).distance.1 - a (T.searchNn q nn).index| ≤ δ ∧
    ∀ j < n, a (T.searchNn q nn).index ≤ a j + 2 * δ
  knn : ∀ k prior, 0 < k → ∃ out, T.searchKnn q k prior = .ok out ∧ out.length = min k n ∧
    (out.map (·.index)).Nodup ∧ (∀ x ∈ out, x.index < n ∧ |x.distance.1 - a x.index| ≤ δ) ∧
    (out.Pairwise fun x y => a x.index ≤ a y.index + 2 * δ) ∧
    ∀ x ∈ out, ∀ j < n, j ∉ out.map (·.index) → a x.index ≤ a j + 2 * δ
  radius : ∀ sorter r prior sort, ((T.searchRadius sorter q r prior sort).map (·.index)).Nodup ∧
    (∀ x ∈ T.searchRadius sorter q r prior sort, x.index < n ∧ |x.distance.1 - a x.index| ≤ δ ∧
      a x.index < r.1 + δ) ∧
    ∀ j < n, a j + δ < r.1 → j ∈ (T.searchRadius sorter q r prior sort).map (·.index)

theorem all_index (n : Nat) {β : Type} (dist : Nat → β) : (all n dist).map (·.index) = List.range n := by
  simp [all, Function.comp_def]

theorem all_mem {n : Nat} {β : Type} {dist : Nat → β} {x : Neighbor β} (h : x ∈ all n dist) :
    x.index < n ∧ x.distance = dist x.index := by
  simp only [all, List.mem_map, List.mem_range] at h
  obtain ⟨i, hi, rfl⟩ := h
  exact ⟨hi, rfl⟩

/-- C142: on the circle every search is correct for the arcs up to an absolute error `u (1 + u)` of each distance,
where `u` bounds the relative error of a single addition. -/
theorem c142_circle (hu : R.Error u) (hu0 : 0 ≤ u) (hone : R.rd 1 = 1) {N : Num R.F} {pts : Nat → Pt R.F 1}
    {n : Nat} {o : BuildOpts R.F 1} {fuel : Nat} {T : KdTree R.F 1 (Branch2 R.F 1)}
    (h : KdTree.make (topologicalTag R.F 1) (metricSO2 R.F) N pts n o fuel = .ok T)
    (hR : Representable N pts n o) (hn : 0 < n) (q : Pt R.F 1)
    (hc : CircleOk (metricSO2 R.F).space pts n o q) (hbig : 1 < N.big.1) :
    ArcsUpTo T q n (fun i => shortArc (q 0).1 (pts i 0).1) (u * (1 + u)) := by
  have one_val : (1 : R.F).1 = 1 := hone
  have hq : 0 ≤ (q 0).1 ∧ (q 0).1 ≤ 1 := by
    have := hc.query 0 rfl
    exact ⟨this.1, one_val ▸ this.2⟩
  have hp : ∀ i < n, 0 ≤ (pts i 0).1 ∧ (pts i 0).1 ≤ 1 := fun i hi => by
    have := hc.points i hi 0 rfl
    exact ⟨this.1, one_val ▸ this.2⟩
  have herr := fun i (hi : i < n) => roundedCircle_error hu hu0 hone q (pts i) hq (hp i hi)
  obtain ⟨dist, hd, h1, h2, h3⟩ := c70_so2 h hR hn q hc fun i hi => by
    refine lt_of_le_of_lt (min_le_left _ _) (lt_of_le_of_lt ?_ hbig)
    have hx1 : |(q 0).1 - (pts i 0).1| ≤ 1 :=
      abs_le.2 ⟨by linarith [hq.1, (hp i hi).2], by linarith [hq.2, (hp i hi).1]⟩
    have a1 := R.mono _ 1 (abs_le.1 hx1).2
    have a2 := R.mono (-1) _ (abs_le.1 hx1).1
    rw [R.odd, hone] at a2
    rw [hone] at a1
    exact abs_le.2 ⟨a2, a1⟩
  have he : ∀ i < n, |(dist i).1 - shortArc (q 0).1 (pts i 0).1| ≤ u * (1 + u) := fun i hi => by
    rw [hd i]; exact herr i hi
  have hle : ∀ i < n, ∀ j < n, dist i ≤ dist j →
      shortArc (q 0).1 (pts i 0).1 ≤ shortArc (q 0).1 (pts j 0).1 + 2 * (u * (1 + u)) := fun i hi j hj hij => by
    have hij' : (dist i).1 ≤ (dist j).1 := hij
    have b1 := abs_le.1 (he i hi)
    have b2 := abs_le.1 (he j hj)
    linarith [b1.1, b2.2]
  refine ⟨fun nn => ?_, fun k prior hk => ?_, fun sorter r prior sort => ?_⟩
  · have g := h1 nn
    refine ⟨g.valid, ?_, fun j hj => hle _ g.valid j hj ?_⟩
    · rw [g.distance]; exact he _ g.valid
    · rw [← g.distance]; exact g.nearest j hj
  · obtain ⟨out, e, g⟩ := h2 k prior hk
    obtain ⟨rest, hperm, hrest⟩ := g.rest
    have hm : ∀ x ∈ out, x.index < n ∧ x.distance = dist x.index := fun x hx =>
      all_mem (hperm.subset (List.mem_append_left _ hx))
    have hidx := hperm.map (·.index)
    rw [all_index, List.map_append] at hidx
    refine ⟨out, e, g.length, (List.nodup_append.1 (hidx.nodup_iff.2 List.nodup_range)).1, fun x hx => ?_, ?_, ?_⟩
    · obtain ⟨a1, a2⟩ := hm x hx
      rw [a2]
      exact ⟨a1, he _ a1⟩
    · refine g.sorted.imp_of_mem fun {x y} hx hy hxy => ?_
      rw [(hm x hx).2, (hm y hy).2] at hxy
      exact hle _ (hm x hx).1 _ (hm y hy).1 hxy
    · intro x hx j hj hjo
      have hj' : j ∈ out.map (·.index) ++ rest.map (·.index) := hidx.symm.subset (List.mem_range.2 hj)
      rcases List.mem_append.1 hj' with hj' | hj'
      · exact absurd hj' hjo
      · obtain ⟨y, hy, rfl⟩ := List.mem_map.1 hj'
        have hy' := all_mem (hperm.subset (List.mem_append_right _ hy))
        have := hrest x hx y hy
        rw [(hm x hx).2, hy'.2] at this
        exact hle _ (hm x hx).1 _ hj this
  · have g := h3 sorter r prior sort
    have hm : ∀ x, x ∈ T.searchRadius sorter q r prior sort ↔ x ∈ all n dist ∧ x.distance < r := fun x => by
      rw [g.mem_iff, List.mem_filter, decide_eq_true_iff]
    refine ⟨?_, fun x hx => ?_, fun j hj hjr => ?_⟩
    · refine (g.map (·.index)).nodup_iff.2 ?_
      refine List.Nodup.sublist ((List.filter_sublist).map _) ?_
      rw [all_index]
      exact List.nodup_range
    · obtain ⟨hx, hxr⟩ := (hm x).1 hx
      obtain ⟨a1, a2⟩ := all_mem hx
      have hxr' : x.distance.1 < r.1 := hxr
      have b := he _ a1
      rw [← a2] at b
      exact ⟨a1, b, by linarith [(abs_le.1 b).1]⟩
    · refine List.mem_map.2 ⟨⟨j, dist j⟩, (hm _).2 ⟨?_, ?_⟩, rfl⟩
      · exact List.mem_map.2 ⟨j, List.mem_range.2 hj, rfl⟩
      · show (dist j).1 < r.1
        linarith [(abs_le.1 (he j hj)).2]

/-- C142: 0 and 1 are the same angle; their computed distances from any angle are the same up to twice that error. -/
theorem c142_seam (hu : R.Error u) (hu0 : 0 ≤ u) (hone : R.rd 1 = 1) (q p p' : Pt R.F 1)
    (hq : 0 ≤ (q 0).1 ∧ (q 0).1 ≤ 1) (hp : (p 0).1 = 0) (hp' : (p' 0).1 = 1) :
    |((metricSO2 R.F).dist q p).1 - ((metricSO2 R.F).dist q p').1| ≤ 2 * (u * (1 + u)) := by
  have e1 := roundedCircle_error hu hu0 hone q p hq (by rw [hp]; exact ⟨le_rfl, zero_le_one⟩)
  have e2 := roundedCircle_error hu hu0 hone q p' hq (by rw [hp']; exact ⟨zero_le_one, le_rfl⟩)
  have e3 : shortArc (q 0).1 (p 0).1 = shortArc (q 0).1 (p' 0).1 := by
    rw [shortArc, shortArc, hp, hp', sub_zero, abs_of_nonneg hq.1, abs_of_nonpos (by linarith [hq.2]), min_comm]
    congr 1 <;> ring
  rw [dist_so2_val, dist_so2_val]
  rw [e3] at e1
  have b1 := abs_le.1 e1
  have b2 := abs_le.1 e2
  rw [abs_le]
  constructor <;> linarith

end

/-- C142 for float: arcs are right up to `2^-24 (1 + 2^-24)` turns. -/
theorem c142_float {pts : Nat → Pt F32 1} {n : Nat} {o : BuildOpts F32 1} {fuel : Nat}
    {T : KdTree F32 1 (Branch2 F32 1)}
    (h : KdTree.make (topologicalTag F32 1) (metricSO2 F32) floatNum pts n o fuel = .ok T)
    (hR : Representable floatNum pts n o) (hn : 0 < n) (q : Pt F32 1)
    (hc : CircleOk (metricSO2 F32).space pts n o q) :
    ArcsUpTo T q n (fun i => shortArc (q 0).1 (pts i 0).1) (1 / 2 ^ 24 * (1 + 1 / 2 ^ 24)) :=
  c142_circle (R := ieee 23 (-149)) (ieee_relative 23 (-149)) (by positivity) (by decide +kernel) h hR hn q hc
    (by decide +kernel)

/-- A small angle, one a little smaller, and a full turn. -/
def nearSeam : Nat → Pt F32 1
  | 0 => ![lit (1 / 2 ^ 30 - 1 / 2 ^ 53)]
  | _ => ![lit 1]

/-- C142: the error is absolute, not relative: for float, the angle `2^-30` and two points, the search returns the
point at a full turn with the distance 0, although its arc is `2^-30` and the other one is `2^-53`, shorter by a
factor of more than eight million. -/
theorem c142_relative_false :
    ∃ T, KdTree.make (topologicalTag F32 1) (metricSO2 F32) floatNum nearSeam 2 (Ref.optsSliding F32 1) 10 = .ok T ∧
      T.searchNn ![lit (1 / 2 ^ 30)] ⟨0, 0⟩ = ⟨1, 0⟩ ∧
      shortArc (1 / 2 ^ 30) (nearSeam 1 0).1 = 1 / 2 ^ 30 ∧ shortArc (1 / 2 ^ 30) (nearSeam 0 0).1 = 1 / 2 ^ 53 := by
  obtain ⟨T, hT, hp⟩ := Outcome.exists_of_check
    (x := KdTree.make (topologicalTag F32 1) (metricSO2 F32) floatNum nearSeam 2 (Ref.optsSliding F32 1) 10)
    (p := fun T => decide (T.searchNn ![lit (1 / 2 ^ 30)] ⟨0, 0⟩ = ⟨1, 0⟩)) (by decide +kernel)
  have e1 : (nearSeam 1 0).1 = 1 := by decide +kernel
  have e0 : (nearSeam 0 0).1 = 1 / 2 ^ 30 - 1 / 2 ^ 53 := by decide +kernel
  refine ⟨T, hT, by simpa using hp, ?_, ?_⟩
  · rw [e1]; norm_num [shortArc, abs_of_neg]
  · rw [e0]; norm_num [shortArc, abs_of_pos]

/-- The hypotheses of `c142_float`, for the same two points. -/
example : Representable floatNum nearSeam 2 (Ref.optsSliding F32 1) ∧
    CircleOk (metricSO2 F32).space nearSeam 2 (Ref.optsSliding F32 1) ![lit (1 / 2 ^ 30)] := by
  refine ⟨⟨by decide +kernel, fun i hi j => ?_, trivial, fun h => by cases h⟩,
    ⟨fun i hi j _ => ?_, fun j _ => ?_, fun h => by cases h⟩⟩
  · have : ∀ i < 2, ∀ j : Fin 1, floatNum.low ≤ nearSeam i j ∧ nearSeam i j ≤ floatNum.big := by decide +kernel
    exact this i hi j
  · revert i j; decide +kernel
  · revert j; decide +kernel

end Pico.Props
