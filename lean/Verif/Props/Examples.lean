import Verif.Model.Examples
import Verif.Props.Builder
import Verif.Props.Grid
import Verif.Props.Lookup
import Verif.Props.Stored
import Verif.Props.UnitTests
import Verif.Props.View

/-!
# C136: the example programs do what they say
-/

set_option linter.unusedSectionVars false

namespace Pico.Props

open Pico.Examples Pico.Gtest

/-! ## Arrays -/

section Arrays
variable {K : Type} [Field K] [LinearOrder K] [IsStrictOrderedRing K] {R : Rounding K} {low big : R.F}
  {count dim : Nat}

/-- Point `i` has the coordinates `i * dim, i * dim + 1, …`. -/
def Counted (pts : Nat → Pt R.F dim) (count : Nat) : Prop :=
  ∀ i < count, ∀ j, (pts i j).1 = ((i * dim + j : Nat) : K)

theorem ofK_exact (hX : R.ExactUpTo 1 (count * dim)) {m : Nat} (hm : m ≤ count * dim) :
    (R.ofK (m : K)).1 = (m : K) := by
  have := hX m (by rw [abs_of_nonneg (by positivity)]; exact_mod_cast hm)
  rw [mul_one] at this
  exact_mod_cast this

theorem one_le_rd (h1 : R.rd 1 = 1) {x : K} (hx : 1 ≤ x) : 1 ≤ R.rd x := by
  have := R.mono 1 x hx
  rwa [h1] at this

/-- Different points of the array do not have computed distance zero. -/
theorem counted_dist (hX : R.ExactUpTo 1 (count * dim)) (hd : 0 < dim) {pts : Nat → Pt R.F dim}
    (hp : Counted pts count) {i k : Nat} (hi : i < count) (hk : k < count)
    (h0 : (metricL2Sq R.F dim).dist (pts i) (pts k) = 0) : i = k := by
  by_contra hne
  have h1 : R.rd 1 = 1 := by
    have := hX 1 (by
      have : 1 * 1 ≤ count * dim := Nat.mul_le_mul (by omega) hd
      have h2 : ((1 : Nat) : ℤ) ≤ ((count * dim : Nat) : ℤ) := by exact_mod_cast (by omega : 1 ≤ count * dim)
      simpa using h2)
    simpa using this
  have hnn : ∀ x : R.F, (0 : R.F) ≤ squared x := fun x => by
    show (0 : K) ≤ R.rd (x.1 * x.1)
    have := R.mono 0 _ (mul_self_nonneg x.1)
    rwa [R.rd_zero] at this
  have hs := (term_le_loopSum (fun j => squaredR1Distance (pts i j) (pts k j)) fun j => hnn _).2 ⟨0, hd⟩
  have h0' : squaredR1Distance (pts i ⟨0, hd⟩) (pts k ⟨0, hd⟩) ≤ 0 := h0 ▸ hs
  have hx : (pts i ⟨0, hd⟩ - pts k ⟨0, hd⟩ : R.F).1 = R.rd ((i * dim : Nat) - (k * dim : Nat) : K) := by
    show R.rd ((pts i ⟨0, hd⟩).1 - (pts k ⟨0, hd⟩).1) = _
    rw [hp i hi, hp k hk]; rfl
  have hge : 1 ≤ (pts i ⟨0, hd⟩ - pts k ⟨0, hd⟩ : R.F).1 ∨ (pts i ⟨0, hd⟩ - pts k ⟨0, hd⟩ : R.F).1 ≤ -1 := by
    rw [hx]
    rcases Nat.lt_or_gt_of_ne hne with h | h
    · right
      have h2 : i * dim + 1 ≤ k * dim := by
        have := Nat.mul_le_mul_right dim (show i + 1 ≤ k by omega)
        rw [Nat.add_mul] at this; omega
      have h3 : ((i * dim : Nat) : K) + 1 ≤ ((k * dim : Nat) : K) := by exact_mod_cast h2
      have h4 : (1 : K) ≤ R.rd (-(((i * dim : Nat) : K) - ((k * dim : Nat) : K))) := one_le_rd h1 (by linarith)
      rw [R.odd] at h4
      linarith
    · left
      have h2 : k * dim + 1 ≤ i * dim := by
        have := Nat.mul_le_mul_right dim (show k + 1 ≤ i by omega)
        rw [Nat.add_mul] at this; omega
      have h3 : ((k * dim : Nat) : K) + 1 ≤ ((i * dim : Nat) : K) := by exact_mod_cast h2
      exact one_le_rd h1 (by linarith)
  have h5 : (1 : K) ≤ (squaredR1Distance (pts i ⟨0, hd⟩) (pts k ⟨0, hd⟩)).1 := by
    show (1 : K) ≤ R.rd ((pts i ⟨0, hd⟩ - pts k ⟨0, hd⟩ : R.F).1 * (pts i ⟨0, hd⟩ - pts k ⟨0, hd⟩ : R.F).1)
    refine one_le_rd h1 ?_
    rcases hge with h | h <;> nlinarith
  have h6 : (squaredR1Distance (pts i ⟨0, hd⟩) (pts k ⟨0, hd⟩)).1 ≤ 0 := h0'
  linarith

/-- Searching for a point of the array finds this point. -/
theorem closest_counted (hX : R.ExactUpTo 1 (count * dim)) (hd : 0 < dim)
    (hlow : low.1 < -((count * dim : Nat) : K)) (hbig : ((count * dim : Nat) : K) ≤ big.1)
    {pts : Nat → Pt R.F dim} (hp : Counted pts count) (S : Std) {leaf index : Nat} (h1 : 1 ≤ leaf)
    (hl : leaf < 2 ^ 31) (hi : index < count) {q : Pt R.F dim} (hq : q = pts index) :
    ∃ fuel, ∀ f ≥ fuel, ∀ nn, closest (euclideanTag R.F dim) (metricL2Sq R.F dim) (R.num low big) pts count
      ⟨S, .sliding, .maxLeafSize leaf, .fromSpace, 32⟩ q nn f = .ok index := by
  have hL : (R.ofK ((count * dim : Nat) : K)).1 = ((count * dim : Nat) : K) := ofK_exact hX le_rfl
  have hpos : (0 : K) < ((count * dim : Nat) : K) := by
    exact_mod_cast Nat.mul_pos (by omega) hd
  have hb : ∀ i < count, ∀ j, (0 : R.F) ≤ pts i j ∧ pts i j ≤ R.ofK ((count * dim : Nat) : K) := by
    intro i hi j
    have hle : i * dim + j ≤ count * dim := by
      have := Nat.mul_le_mul_right dim (show i + 1 ≤ count by omega)
      rw [Nat.add_mul] at this; omega
    constructor
    · show (0 : K) ≤ (pts i j).1
      rw [hp i hi]; positivity
    · show (pts i j).1 ≤ (R.ofK _).1
      rw [hp i hi, hL]; exact_mod_cast hle
  have hsafe : SplitSafe (R.num low big) 0 (R.ofK ((count * dim : Nat) : K)) := by
    refine splitSafe_rounding (R := R) (low := low) (big := big) ?_
    show low.1 < R.rd (0 - (R.ofK _).1)
    rw [hL, zero_sub, R.odd]
    have : R.rd ((count * dim : Nat) : K) = ((count * dim : Nat) : K) := hL
    rw [this]; exact hlow
  obtain ⟨fuel, T, hT⟩ := c22_terminates_partial (o := ⟨S, .sliding, .maxLeafSize leaf, .fromSpace, 32⟩)
    (euclideanTag R.F dim) (metricL2Sq R.F dim) hsafe hd (by omega : 0 < count) (by simp)
    (fun m hm => by cases hm; exact ⟨h1, hl⟩) hb
    ⟨by show low.1 ≤ (R.ofK _).1; rw [hL]; linarith, by show (0 : K) ≤ big.1; linarith⟩
    (fun mn mx h => by cases h)
  refine ⟨fuel, fun f hf nn => ?_⟩
  have hR : Representable (R.num low big) pts count ⟨S, .sliding, .maxLeafSize leaf, .fromSpace, 32⟩ := by
    refine ⟨?_, fun i hi j => ⟨?_, ?_⟩, trivial, fun h => by cases h⟩
    · show low.1 ≤ big.1; linarith
    · exact le_trans (show low.1 ≤ (0 : K) by linarith) (hb i hi j).1
    · exact le_trans (hb i hi j).2 (show (R.ofK _).1 ≤ big.1 by rw [hL]; exact hbig)
  have hF := c90_l2 (hT f hf) hR (show (0 : K) < big.1 by linarith) ⟨index, hi, hq.symm⟩
  obtain ⟨h2, h3, -⟩ := hF.nn nn
  unfold closest
  rw [hT f hf]
  show Outcome.ok _ = Outcome.ok _
  congr 1
  subst hq
  exact (counted_dist hX hd hp hi h2 h3).symm

theorem scalars_get {n i : Nat} (h : i < n) : (scalars R n)[i]? = some (R.ofK (i : K)) := by
  simp [scalars, h]

theorem readAt_nat {τ : Type} (buf : List τ) (p : Nat) : readAt buf ((p : Nat) : Int) = buf[p]? := by
  unfold readAt
  rw [if_pos (by omega), Int.toNat_natCast]

/-- The view of the array as a set of points. -/
theorem scalars_points {m : SpaceMap R.F} (hb : m.buf = scalars R (count * m.sdim)) (hdata : m.data = 0)
    (hsz : m.size = count) :
    ∃ pts, m.points = some pts ∧ ∀ i < count, ∀ j, pts i j = R.ofK ((i * m.sdim + j : Nat) : K) := by
  have hc : ∀ i < count, ∀ j < m.sdim, m.coord i j = some (R.ofK ((i * m.sdim + j : Nat) : K)) := by
    intro i hi j hj
    unfold SpaceMap.coord
    rw [hdata, zero_add, readAt_nat, hb]
    refine scalars_get ?_
    have := Nat.mul_le_mul_right m.sdim (show i + 1 ≤ count by omega)
    rw [Nat.add_mul] at this; omega
  have hp : ∀ i < count, m.point m.sdim i = some fun j : Fin m.sdim => R.ofK ((i * m.sdim + j : Nat) : K) := by
    intro i hi
    obtain ⟨x, h1, h2⟩ := SpaceMap.point_eq (m := m) (d := m.sdim) (i := i) fun j hj => by rw [hc i hi j hj]; rfl
    rw [h1]
    congr 1
    funext j
    have := h2 j
    rw [hc i hi j j.2] at this
    exact (Option.some.inj this).symm
  refine ⟨_, if_pos fun i hi => by rw [hp i (hsz ▸ hi)]; rfl, fun i hi j => ?_⟩
  rw [if_pos (hsz.symm ▸ hi), hp i hi]
  rfl

theorem viewPoint_scalars {v : MapView R.F} {d index : Nat} (hb : v.buf = scalars R (count * d))
    (hdata : v.data = ((index * d : Nat) : Int)) (hi : index < count) :
    viewPoint v d = some fun j : Fin d => R.ofK ((index * d + j : Nat) : K) := by
  have hc : ∀ j : Fin d, v.get j = some (R.ofK ((index * d + j : Nat) : K)) := by
    intro j
    unfold MapView.get
    rw [hdata, show ((index * d : Nat) : Int) + ((j : Nat) : Int) = ((index * d + j : Nat) : Int) by push_cast; rfl,
      readAt_nat, hb]
    refine scalars_get ?_
    have := Nat.mul_le_mul_right d (show index + 1 ≤ count by omega)
    rw [Nat.add_mul] at this; omega
  unfold viewPoint
  rw [dif_pos fun j => by rw [hc j]; rfl]
  congr 1
  funext j
  exact Option.get_of_eq_some _ (hc j)

/-- C136 for `array_of_scalars`: for any number of points and dimension (known at compile time or not), leaf size and
index, the program prints the index of the point that it looks for. All numbers in the array have to be
representable. -/
theorem c136_array_of_scalars (hX : R.ExactUpTo 1 (count * dim)) (hd : 0 < dim)
    (hlow : low.1 < -((count * dim : Nat) : K)) (hbig : ((count * dim : Nat) : K) ≤ big.1) (S : Std)
    {Dim : Option Nat} (hD : ∀ m ∈ Dim, dim = m) {leaf index : Nat} (h1 : 1 ≤ leaf) (hl : leaf < 2 ^ 31)
    (hi : index < count) :
    ∃ fuel, ∀ f ≥ fuel, ∀ nn, arrayOfScalars R (R.num low big) S Dim count dim leaf index nn f = .ok index := by
  have hs : Dim.getD dim = dim := by
    cases Dim with
    | none => rfl
    | some m => exact (hD m rfl).symm
  unfold arrayOfScalars
  have key : ∀ m : SpaceMap R.F, m.sdim = dim → m.buf = scalars R (count * dim) → m.data = 0 → m.size = count →
      ∀ v : MapView R.F, v.buf = scalars R (count * dim) → v.data = ((index * dim : Nat) : Int) →
      ∃ fuel, ∀ f ≥ fuel, ∀ nn, (match m.points, viewPoint v m.sdim with
        | some pts, some q => closest (euclideanTag R.F m.sdim) (metricL2Sq R.F m.sdim) (R.num low big) pts m.size
          ⟨S, .sliding, .maxLeafSize leaf, .fromSpace, 32⟩ q nn f
        | _, _ => .ub) = .ok index := by
    intro m hm hb hdata hsz v hvb hvd
    subst hm
    obtain ⟨pts, h2, h3⟩ := scalars_points hb hdata hsz
    rw [h2, viewPoint_scalars hvb hvd hi]
    have hp : Counted pts count := fun i hi j => by
      rw [h3 i hi j]
      refine ofK_exact hX ?_
      have := Nat.mul_le_mul_right m.sdim (show i + 1 ≤ count by omega)
      rw [Nat.add_mul] at this; omega
    subst hsz
    exact closest_counted hX hd hlow hbig hp S h1 hl hi (funext fun j => (h3 index hi j).symm)
  exact key _ hs rfl rfl rfl _ rfl rfl

/-- C136 for `array_of_points`, for any number of points, dimension, leaf size and index. -/
theorem c136_array_of_points (hX : R.ExactUpTo 1 (count * dim)) (hd : 0 < dim)
    (hlow : low.1 < -((count * dim : Nat) : K)) (hbig : ((count * dim : Nat) : K) ≤ big.1) (S : Std)
    {leaf index : Nat} (h1 : 1 ≤ leaf) (hl : leaf < 2 ^ 31) (hi : index < count) :
    ∃ fuel, ∀ f ≥ fuel, ∀ nn, arrayOfPoints R (R.num low big) S count dim leaf index nn f = .ok index := by
  have hg : ∀ i < count, (points R count dim)[i]? = some fun j : Fin dim => R.ofK ((i * dim + j : Nat) : K) := by
    intro i hi
    simp [points, hi]
  have hm : ∀ i < count, (pointsMap (points R count dim) 0 count).get i =
      some fun j : Fin dim => R.ofK ((i * dim + j : Nat) : K) := by
    intro i hi
    unfold MapView.get pointsMap MapView.ofSize
    rw [zero_add, readAt_nat, hg i hi]
  have hp : Counted (fun i => ((pointsMap (points R count dim) 0 count).get i).getD fun _ => 0) count := fun i hi j => by
    show (((pointsMap (points R count dim) 0 count).get i).getD (fun _ => 0) j).1 = _
    rw [hm i hi]
    refine ofK_exact hX ?_
    have := Nat.mul_le_mul_right dim (show i + 1 ≤ count by omega)
    rw [Nat.add_mul] at this; omega
  obtain ⟨fuel, hf⟩ := closest_counted hX hd hlow hbig hp S h1 hl hi rfl
  refine ⟨fuel, fun f h nn => ?_⟩
  unfold arrayOfPoints
  simp only [hg index hi]
  have hall : ∀ i < (pointsMap (points R count dim) 0 count).size,
      ((pointsMap (points R count dim) 0 count).get i).isSome = true := fun i hi => by rw [hm i hi]; rfl
  rw [if_pos hall]
  have := hf f h nn
  rw [hm index hi] at this
  exact this

/-- `numeric_limits<double>`. -/
def doubleNum : Num (ieee 52 (-1074)).F :=
  (ieee 52 (-1074)).num ((ieee 52 (-1074)).ofK (-((2 ^ 53 - 1) * 2 ^ 971))) ((ieee 52 (-1074)).ofK ((2 ^ 53 - 1) * 2 ^ 971))

/-- C136: the two functions of kd_tree_dynamic_arrays.cpp in double precision, for up to `2^53` numbers. The example has
6 points, looks for the points 2 and 1, and says that it prints 2 and 1. -/
theorem c136_dynamic_arrays (S : Std) {count dim leaf index : Nat} (hd : 0 < dim) (hc : count * dim ≤ 2 ^ 53)
    (h1 : 1 ≤ leaf) (hl : leaf < 2 ^ 31) (hi : index < count) :
    ∃ fuel, ∀ f ≥ fuel, ∀ nn,
      arrayOfScalars (ieee 52 (-1074)) doubleNum S (some dim) count dim leaf index nn f = .ok index ∧
      arrayOfScalars (ieee 52 (-1074)) doubleNum S none count dim leaf index nn f = .ok index ∧
      arrayOfPoints (ieee 52 (-1074)) doubleNum S count dim leaf index nn f = .ok index := by
  have hX : (ieee 52 (-1074)).ExactUpTo 1 (count * dim) := fun m hm => by
    have := ieee_exactUpTo 52 (-1074) (k := 0) (by norm_num) m (hm.trans (by exact_mod_cast hc))
    simpa using this
  have hcq : ((count * dim : Nat) : ℚ) ≤ 2 ^ 53 := by exact_mod_cast hc
  have hlow : ((ieee 52 (-1074)).ofK (-((2 ^ 53 - 1) * 2 ^ 971))).1 < -(2 ^ 53 : ℚ) := by decide +kernel
  have hbig : (2 ^ 53 : ℚ) ≤ ((ieee 52 (-1074)).ofK ((2 ^ 53 - 1) * 2 ^ 971)).1 := by decide +kernel
  have hlow' := hlow.trans_le (neg_le_neg hcq)
  have hbig' := hcq.trans hbig
  obtain ⟨f1, g1⟩ := c136_array_of_scalars hX hd hlow' hbig' S (Dim := some dim) (by simp) h1 hl hi
  obtain ⟨f2, g2⟩ := c136_array_of_scalars hX hd hlow' hbig' S (Dim := none) (by simp) h1 hl hi
  obtain ⟨f3, g3⟩ := c136_array_of_points hX hd hlow' hbig' S h1 hl hi
  exact ⟨max f1 (max f2 f3), fun f hf nn => ⟨g1 f (le_of_max_le_left hf) nn,
    g2 f (le_of_max_le_left (le_of_max_le_right hf)) nn, g3 f (le_of_max_le_right (le_of_max_le_right hf)) nn⟩⟩

/-- The example as it is. -/
example (S : Std) : ∃ fuel, ∀ f ≥ fuel, ∀ nn,
    arrayOfScalars (ieee 52 (-1074)) doubleNum S (some 2) 6 2 3 2 nn f = .ok 2 :=
  (c136_dynamic_arrays S (count := 6) (dim := 2) (leaf := 3) (index := 2) (by norm_num) (by norm_num) (by norm_num)
    (by norm_num) (by norm_num)).imp fun _ h f hf nn => (h f hf nn).1

end Arrays

/-! ## Small sets of points -/

section Float
variable {d n : Nat} {pts : Nat → Pt F32 d} {o : BuildOpts F32 d} {q : Pt F32 d}

/-- A point with coordinates 0, …, 9. -/
def Digits (x : Pt F32 d) : Prop := ∀ j, ∃ m : Nat, m ≤ 9 ∧ x j = lit m

theorem lit_nat {m : Nat} (hm : m ≤ 9) : (lit m).1 = m := by
  interval_cases m <;> decide +kernel

theorem lit_mono {x y : ℚ} (h : x ≤ y) : lit x ≤ lit y := (ieee 23 (-149)).mono _ _ h

theorem digits_grid {x : Pt F32 d} (h : Digits x) : OnGrid (R := ieee 23 (-149)) (2 ^ (0 : ℤ)) 9 x := by
  intro j
  obtain ⟨m, hm, e⟩ := h j
  refine ⟨m, by rw [abs_of_nonneg (by positivity)]; exact_mod_cast hm, ?_⟩
  rw [e, lit_nat hm]
  simp

theorem digits_range {x : Pt F32 d} (h : Digits x) (j : Fin d) : lit 0 ≤ x j ∧ x j ≤ lit 9 := by
  obtain ⟨m, hm, e⟩ := h j
  rw [e]
  exact ⟨lit_mono (by positivity), lit_mono (by exact_mod_cast hm)⟩

/-- The constructor finishes. -/
theorem make_float (M : Metric F32 d) (hd : 0 < d) (hn : 0 < n) (hp : ∀ i < n, Digits (pts i))
    (hr : o.rule ≠ .midpoint) (hs : ∀ m, o.stop = .maxLeafSize m → 1 ≤ m ∧ m < 2 ^ (o.indexBits - 1))
    (hb : ∀ mn mx, o.bounds = .given mn mx → Digits mn ∧ Digits mx) :
    ∃ fuel T, ∀ f ≥ fuel, KdTree.make (euclideanTag F32 d) M floatNum pts n o f = .ok T := by
  have hsafe : SplitSafe floatNum (lit 0) (lit 9) :=
    splitSafe_rounding (R := ieee 23 (-149)) (by decide +kernel)
  have hlow : floatNum.low ≤ lit 0 := by decide +kernel
  have hbig : lit 9 ≤ floatNum.big := by decide +kernel
  have h09 : lit 0 ≤ lit 9 := lit_mono (by norm_num)
  exact c22_terminates_partial (o := o) (euclideanTag F32 d) M hsafe hd hn hr hs
    (fun i hi j => digits_range (hp i hi) j) ⟨hlow.trans h09, h09.trans hbig⟩
    (fun mn mx h j => ⟨digits_range (hb mn mx h).1 j, digits_range (hb mn mx h).2 j⟩)

/-- Trees of points with small coordinates in single precision: the constructor finishes, and the closest point is
found, if there is only one. -/
theorem closest_float (hd : 0 < d) (hd3 : d ≤ 3) (hp : ∀ i < n, Digits (pts i)) (hq : Digits q)
    (hr : o.rule ≠ .midpoint) (hs : ∀ m, o.stop = .maxLeafSize m → 1 ≤ m ∧ m < 2 ^ (o.indexBits - 1))
    (hb : ∀ mn mx, o.bounds = .given mn mx → Digits mn ∧ Digits mx) {w : Nat} (hw : w < n)
    (hmin : ∀ i < n, i ≠ w → Spec.l2Sq ((ieee 23 (-149)).exactPt q) ((ieee 23 (-149)).exactPt (pts w)) <
      Spec.l2Sq ((ieee 23 (-149)).exactPt q) ((ieee 23 (-149)).exactPt (pts i))) :
    ∃ fuel T, (∀ f ≥ fuel, KdTree.make (euclideanTag F32 d) (metricL2Sq F32 d) floatNum pts n o f = .ok T) ∧
      ∀ nn, (T.searchNn q nn).index = w := by
  have hlow : floatNum.low ≤ lit 0 := by decide +kernel
  have hbig : lit 9 ≤ floatNum.big := by decide +kernel
  have h09 : lit 0 ≤ lit 9 := lit_mono (by norm_num)
  obtain ⟨fuel, T, hT⟩ := make_float (metricL2Sq F32 d) hd (by omega) hp hr hs hb
  have hin : ∀ {x : Pt F32 d}, Digits x → ∀ j, InRange floatNum (x j) := fun h j =>
    ⟨hlow.trans (digits_range h j).1, (digits_range h j).2.trans hbig⟩
  have hR : Representable floatNum pts n o := by
    refine ⟨hlow.trans (h09.trans hbig), fun i hi j => hin (hp i hi) j, ?_, fun h => absurd h hr⟩
    cases e : o.bounds with
    | fromSpace => trivial
    | given mn mx => exact fun j => ⟨hin (hb mn mx e).1 j, hin (hb mn mx e).2 j⟩
  have hfar : ∀ i < n, Spec.l2Sq ((ieee 23 (-149)).exactPt q) ((ieee 23 (-149)).exactPt (pts i)) < floatNum.big.1 := by
    intro i hi
    refine lt_of_le_of_lt (b := (243 : ℚ)) ?_ (by decide +kernel)
    unfold Spec.l2Sq
    refine (Finset.sum_le_card_nsmul _ _ 81 fun j _ => ?_).trans ?_
    · obtain ⟨a, ha, ea⟩ := hq j
      obtain ⟨b, hb', eb⟩ := hp i hi j
      have e1 : (ieee 23 (-149)).exactPt q j = a := by unfold Rounding.exactPt; rw [ea, lit_nat ha]
      have e2 : (ieee 23 (-149)).exactPt (pts i) j = b := by unfold Rounding.exactPt; rw [eb, lit_nat hb']
      have h1 : (a : ℚ) ≤ 9 := by exact_mod_cast ha
      have h2 : (b : ℚ) ≤ 9 := by exact_mod_cast hb'
      have h3 : (0 : ℚ) ≤ a := by positivity
      have h4 : (0 : ℚ) ≤ b := by positivity
      rw [e1, e2]
      nlinarith
    · have : (d : ℚ) ≤ 3 := by exact_mod_cast hd3
      simp only [Finset.card_univ, Fintype.card_fin, nsmul_eq_mul]
      linarith
  refine ⟨fuel, T, hT, fun nn => ?_⟩
  obtain ⟨dist, h1, h2, -⟩ := c68_ieee (p := 23) (e := -149) (k := 0) (B := 9) (by norm_num) (by norm_num)
    (by have := Nat.mul_le_mul_right ((2 * 9) ^ 2) hd3; omega) (hT fuel le_rfl) hR (by omega) hr q (digits_grid hq)
    (fun i hi => digits_grid (hp i hi)) hfar
  by_contra hne
  have h3 := h2 nn
  have h4 := hmin _ h3.valid hne
  rw [← h1 _ h3.valid, ← h1 w hw] at h4
  have h5 : (T.searchNn q nn).distance ≤ dist w := h3.nearest w hw
  rw [h3.distance] at h5
  exact absurd h5 (not_le.2 h4)

theorem digits3 {a b c : Nat} (ha : a ≤ 9) (hb : b ≤ 9) (hc : c ≤ 9) :
    Digits (![lit (a : ℚ), lit (b : ℚ), lit (c : ℚ)] : Pt F32 3) := fun j => by
  fin_cases j
  · exact ⟨a, ha, rfl⟩
  · exact ⟨b, hb, rfl⟩
  · exact ⟨c, hc, rfl⟩

theorem digits_query : Digits query := by
  have := digits3 (a := 4) (b := 4) (c := 4) (by norm_num) (by norm_num) (by norm_num)
  exact_mod_cast this

theorem digits_pointSet (i : Nat) : Digits (pointSet i) := by
  match i with
  | 0 =>
    have := digits3 (a := 0) (b := 1) (c := 2) (by norm_num) (by norm_num) (by norm_num)
    exact_mod_cast this
  | i + 1 =>
    have := digits3 (a := 3) (b := 4) (c := 5) (by norm_num) (by norm_num) (by norm_num)
    exact_mod_cast this

/-- Two points, the query closer to the second one: any rule without empty leaves, any stop condition, any start bounds
with small corners. -/
theorem closest_pointSet {o : BuildOpts F32 3} (hr : o.rule ≠ .midpoint)
    (hs : ∀ m, o.stop = .maxLeafSize m → 1 ≤ m ∧ m < 2 ^ (o.indexBits - 1))
    (hb : ∀ mn mx, o.bounds = .given mn mx → Digits mn ∧ Digits mx) :
    ∃ fuel T, (∀ f ≥ fuel, KdTree.make (euclideanTag F32 3) (metricL2Sq F32 3) floatNum pointSet 2 o f = .ok T) ∧
      ∀ nn, (T.searchNn query nn).index = 1 := by
  refine closest_float (by norm_num) le_rfl (fun i _ => digits_pointSet i) digits_query hr hs hb (by norm_num) ?_
  intro i hi hne
  obtain rfl : i = 0 := by omega
  decide +kernel

theorem closest_ok {d : Nat} {β : Type} {tag : SpaceTag F32 d β} {M : Metric F32 d} {pts : Nat → Pt F32 d} {n : Nat}
    {o : BuildOpts F32 d} {q : Pt F32 d} {w : Nat}
    (h : ∃ fuel T, (∀ f ≥ fuel, KdTree.make tag M floatNum pts n o f = .ok T) ∧ ∀ nn, (T.searchNn q nn).index = w) :
    ∃ fuel, ∀ f ≥ fuel, ∀ nn, closest tag M floatNum pts n o q nn f = .ok w := by
  obtain ⟨fuel, T, h, hT⟩ := h
  refine ⟨fuel, fun f hf nn => ?_⟩
  unfold closest
  rw [h f hf]
  show Outcome.ok _ = Outcome.ok _
  rw [hT]

/-- A single leaf, whatever the metric: here `metric_lpinf`. -/
theorem closest_lpinf (S : Std) : ∃ fuel T, (∀ f ≥ fuel, KdTree.make (euclideanTag F32 3) (metricLPInf F32 3) floatNum
    pointSet 2 ⟨S, .sliding, .maxLeafSize 12, .fromSpace, 32⟩ f = .ok T) ∧ ∀ nn, (T.searchNn query nn).index = 1 := by
  obtain ⟨fuel, T, h⟩ := make_float (o := ⟨S, .sliding, .maxLeafSize 12, .fromSpace, 32⟩) (metricLPInf F32 3) (by norm_num)
    (by norm_num) (fun i (_ : i < 2) => digits_pointSet i) (by simp) (fun m h => by cases h; norm_num)
    (fun mn mx h => by cases h)
  refine ⟨fuel, T, h, fun nn => ?_⟩
  obtain ⟨T', h1, h2, h3⟩ := c18_single_leaf_partial (tag := euclideanTag F32 3) (M := metricLPInf F32 3) (N := floatNum)
    (pts := pointSet) (n := 2) (o := ⟨S, .sliding, .maxLeafSize 12, .fromSpace, 32⟩) (m := 12) rfl (by norm_num)
    (by norm_num) fuel
  obtain rfl : T = T' := by
    have := h (fuel + 1) (by omega)
    rw [h1] at this
    exact (Outcome.ok.inj this).symm
  obtain ⟨e1, e2, e3, e4, e5, -⟩ := KdTree.make_ok h1
  unfold KdTree.searchNn KdTree.searchNearest
  rw [h2, h3, e2, e3, e4]
  have d0 : (metricLPInf F32 3).dist query (pointSet 0) < floatNum.big := by decide +kernel
  have d1 : (metricLPInf F32 3).dist query (pointSet 1) < (metricLPInf F32 3).dist query (pointSet 0) := by
    decide +kernel
  simp [searchNearestRoot, searchNearest, visitAll, slice, nnVisitor, nnInit, List.range_succ, d0, d1]

/-- C136: kd_tree_minimal.cpp and kd_tree_custom_point_type.cpp print 1. -/
theorem c136_minimal (S : Std) : ∃ fuel, ∀ f ≥ fuel, ∀ nn, minimal floatNum S nn f = .ok 1 :=
  closest_ok (closest_pointSet (by simp) (fun m h => by cases h; norm_num) (fun mn mx h => by cases h))

/-- C136: kd_tree_creation.cpp prints 1 eleven times. -/
theorem c136_creation (S : Std) : ∃ fuel, ∀ f ≥ fuel, ∀ nn, creation floatNum S nn f = .ok (List.replicate 11 1) := by
  have h09 : Digits (![lit 0, lit 0, lit 0] : Pt F32 3) ∧ Digits (![lit 9, lit 9, lit 9] : Pt F32 3) := by
    have h1 := digits3 (a := 0) (b := 0) (c := 0) (by norm_num) (by norm_num) (by norm_num)
    have h2 := digits3 (a := 9) (b := 9) (c := 9) (by norm_num) (by norm_num) (by norm_num)
    exact ⟨by exact_mod_cast h1, by exact_mod_cast h2⟩
  obtain ⟨f1, g1⟩ := closest_ok (closest_pointSet (o := ⟨S, .sliding, .maxLeafSize 1, .fromSpace, 32⟩) (by simp)
    (fun m h => by cases h; norm_num) (fun mn mx h => by cases h))
  obtain ⟨f2, g2⟩ := closest_ok (closest_pointSet (o := ⟨S, .sliding, .maxLeafDepth 0, .fromSpace, 32⟩) (by simp)
    (fun m h => by cases h) (fun mn mx h => by cases h))
  obtain ⟨f3, g3⟩ := closest_ok (closest_pointSet (o := ⟨S, .sliding, .maxLeafSize 1,
    .given ![lit 0, lit 0, lit 0] ![lit 9, lit 9, lit 9], 32⟩) (by simp)
    (fun m h => by cases h; norm_num) (fun mn mx h => by cases h; exact h09))
  obtain ⟨f4, g4⟩ := closest_ok (closest_pointSet (o := ⟨S, .median, .maxLeafSize 1, .fromSpace, 32⟩) (by simp)
    (fun m h => by cases h; norm_num) (fun mn mx h => by cases h))
  obtain ⟨f5, g5⟩ := closest_ok (closest_pointSet (o := ⟨S, .sliding, .maxLeafSize 12, .fromSpace, 32⟩) (by simp)
    (fun m h => by cases h; norm_num) (fun mn mx h => by cases h))
  obtain ⟨f6, g6⟩ := closest_ok (closest_lpinf S)
  refine ⟨f1 + f2 + f3 + f4 + f5 + f6, fun f hf nn => ?_⟩
  simp only [creation, parameters, List.map_cons, List.map_nil, List.cons_append, List.nil_append,
    g1 f (by omega) nn, g2 f (by omega) nn, g3 f (by omega) nn, g4 f (by omega) nn, g5 f (by omega) nn,
    g6 f (by omega) nn]
  rfl

/-- C136: kd_tree_save_and_load.cpp prints 1, on every platform whose types hold the sizes and scalars involved. -/
theorem c136_save_and_load (S : Std) {P : Platform F32} (hp : P.Holds 2 3)
    (hN : P.scalar.Good floatNum.low ∧ P.scalar.Good floatNum.big) (hs : ∀ m : Nat, m ≤ 9 → P.scalar.Good (lit m))
    (pad : Nat → Byte) : ∃ fuel, ∀ f ≥ fuel, ∀ nn, saveAndLoad floatNum P pad S nn f = .ok 1 := by
  obtain ⟨fuel, T, h, hT⟩ := closest_pointSet (o := ⟨S, .sliding, .maxLeafSize 12, .fromSpace, 32⟩) (by simp)
    (fun m h => by cases h; norm_num) (fun mn mx h => by cases h)
  have hgood : ∀ i < 2, ∀ j, P.scalar.Good (pointSet i j) := fun i _ j => by
    obtain ⟨m, hm, e⟩ := digits_pointSet i j
    rw [e]; exact hs m hm
  obtain ⟨body, hb, hl⟩ := c28_coordinates (h fuel le_rfl) (by simp) hp hN hgood (fun mn mx h => by cases h) pad []
  refine ⟨max fuel (body.length + 1), fun f hf nn => ?_⟩
  have h1 := hl [] f (by rw [List.append_nil]; exact lt_of_lt_of_le (Nat.lt_succ_self _) (le_of_max_le_right hf))
  rw [List.append_nil] at h1
  unfold saveAndLoad
  rw [h f (le_of_max_le_left hf)]
  show (Call.ofLoad (KdTree.load P (P.branch1 3) _ _ _ _ 2 f (T.save pad P (P.branch1 3) []))).bind _ = _
  rw [hb, List.nil_append, h1]
  show Call.ok _ = Call.ok _
  rw [hT]

/-- C136: kd_tree_custom_space_type.cpp prints 2. -/
theorem c136_custom_space (S : Std) : ∃ fuel, ∀ f ≥ fuel, ∀ nn, customSpace floatNum S nn f = .ok 2 := by
  have h2 : ∀ {a b : Nat}, a ≤ 9 → b ≤ 9 → Digits (![lit (a : ℚ), lit (b : ℚ)] : Pt F32 2) := fun ha hb j => by
    fin_cases j
    · exact ⟨_, ha, rfl⟩
    · exact ⟨_, hb, rfl⟩
  refine closest_ok (closest_float (by norm_num) (by norm_num) ?_ ?_ (by simp) (fun m h => by cases h; norm_num)
    (fun mn mx h => by cases h) (by norm_num) ?_)
  · intro i hi
    match i with
    | 0 => have := h2 (a := 0) (b := 1) (by norm_num) (by norm_num); exact_mod_cast this
    | 1 => have := h2 (a := 2) (b := 3) (by norm_num) (by norm_num); exact_mod_cast this
    | i + 2 => have := h2 (a := 4) (b := 5) (by norm_num) (by norm_num); exact_mod_cast this
  · have := h2 (a := 4) (b := 4) (by norm_num) (by norm_num); exact_mod_cast this
  · intro i hi hne
    have : i = 0 ∨ i = 1 := by omega
    rcases this with rfl | rfl <;> decide +kernel

end Float

/-- The hypotheses of `c136_save_and_load` on the platform: a table of the numbers involved. -/
example : ∃ P : Platform F32, P.Holds 2 3 ∧ (P.scalar.Good floatNum.low ∧ P.scalar.Good floatNum.big) ∧
    ∀ m : Nat, m ≤ 9 → P.scalar.Good (lit m) := by
  let table : List F32 := floatNum.low :: floatNum.big :: (List.range 10).map fun (m : Nat) => lit m
  have hg : ∀ x ∈ table, ((Codec.unsigned 1).view (fun x => table.idxOf x) fun i => table[i]?).Good x := by
    intro x hx
    have h1 := List.idxOf_lt_length_of_mem hx
    have h2 : table.length = 12 := by simp [table]
    exact good_view (good_unsigned (by omega)) (by simp [h1])
  exact ⟨Platform.le64 ((Codec.unsigned 1).view (fun x => table.idxOf x) fun i => table[i]?),
    holds_le64 _ (by omega) (by omega), ⟨hg _ (by simp [table]), hg _ (by simp [table])⟩,
    fun m hm => hg _ (by
      simp only [table, List.mem_cons, List.mem_map, List.mem_range]
      exact Or.inr (Or.inr ⟨m, by omega, rfl⟩))⟩

/-! ## What the comments say about the trees -/

section Shape
variable {α : Type} [LinearOrder α] [Add α] [Sub α] {d : Nat} {β : Type} {tag : SpaceTag α d β} {M : Metric α d}
  {N : Num α} {pts : Nat → Pt α d} {n : Nat} {o : BuildOpts α d} {fuel : Nat} {T : KdTree α d β}

/-- "Every point is a leaf" (kd_tree_creation.cpp:127-130): with a leaf size of one the ranges of the leaves are
`[0, 1), [1, 2), …`, also if points are equal. -/
theorem c136_every_point_a_leaf (h : KdTree.make tag M N pts n o fuel = .ok T) (hn : 0 < n) (hr : o.rule ≠ .midpoint)
    (hs : o.stop = .maxLeafSize 1) (hw : 2 ≤ o.indexBits) :
    T.leafRanges = .ok ((List.range n).map fun i => (i, i + 1)) := by
  obtain ⟨rs, h1, h2, h3, h4, -⟩ := c17_leaf_ranges_partial h hn hr
  have h5 := c18_leaf_size_partial h hs (Nat.one_lt_two_pow (by omega))
  rw [h1]
  congr 1
  have key : ∀ (rs : List (Nat × Nat)) (a b : Nat), Spec.Tiles a rs b → (∀ r ∈ rs, r.1 < r.2) →
      (∀ r ∈ rs, r.2 - r.1 ≤ 1) → rs = (List.range' a (b - a)).map (fun i => (i, i + 1)) ∧ a ≤ b := by
    intro rs
    induction rs with
    | nil =>
      intro a b ht _ _
      obtain rfl : a = b := ht
      simp
    | cons r rs ih =>
      intro a b ht hlt hle
      obtain ⟨x, y⟩ := r
      obtain ⟨rfl, _, ht⟩ : x = a ∧ x ≤ y ∧ Spec.Tiles y rs b := ht
      have e1 : x < y := hlt _ List.mem_cons_self
      have e2 : y - x ≤ 1 := hle _ List.mem_cons_self
      obtain rfl : y = x + 1 := by omega
      obtain ⟨g1, g2⟩ := ih (x + 1) b ht (fun r hr => hlt r (List.mem_cons_of_mem _ hr))
        (fun r hr => hle r (List.mem_cons_of_mem _ hr))
      refine ⟨?_, by omega⟩
      rw [show b - x = (b - (x + 1)) + 1 by omega, List.range'_succ, List.map_cons, g1]
  rw [(key rs 0 n h4 h3 (h2 ▸ h5)).1, List.range_eq_range', Nat.sub_zero]

/-- "The tree is a single leaf" (kd_tree_creation.cpp:133-138): with a depth limit of zero. -/
theorem c136_single_leaf (h : KdTree.make tag M N pts n o fuel = .ok T) (hs : o.stop = .maxLeafDepth 0) :
    T.data.root = .leaf 0 n := by
  obtain ⟨box, hc⟩ := created_of_make h
  have hl : isLeaf (KdTree.cfg tag N pts o) 0 (List.range n).length = true := by
    unfold isLeaf
    show (match o.stop with | .maxLeafSize v => _ | .maxLeafDepth v => _) = true
    rw [hs]
    simp [castIndex]
  generalize T.data.root = t, T.data.indices = is at hc ⊢
  generalize hL : List.range n = L at hc hl
  cases hc with
  | leaf _ => rw [← hL]; simp
  | branch hf => rw [hl] at hf; cases hf

end Shape

/-- Five equal points and a leaf size of one; the same points with a depth limit of zero. -/
example : (∃ T, KdTree.make (euclideanTag Rat 2) (metricL2Sq Rat 2) Ref.ratNum (fun _ => ![1, 2]) 5
      { Ref.optsMedian Rat 2 with stop := .maxLeafSize 1, rule := .sliding } 20 = .ok T ∧
      T.leafRanges = .ok ((List.range 5).map fun i => (i, i + 1))) ∧
    ∃ T, KdTree.make (euclideanTag Rat 2) (metricL2Sq Rat 2) Ref.ratNum (fun _ => ![1, 2]) 5
      { Ref.optsMedian Rat 2 with stop := .maxLeafDepth 0 } 20 = .ok T ∧ T.data.root = .leaf 0 5 := by
  obtain ⟨T, h, -⟩ := Outcome.exists_of_check
    (x := KdTree.make (euclideanTag Rat 2) (metricL2Sq Rat 2) Ref.ratNum (fun _ => ![1, 2]) 5
      { Ref.optsMedian Rat 2 with stop := .maxLeafSize 1, rule := .sliding } 20)
    (p := fun _ => true) (by decide +kernel)
  obtain ⟨T', h', -⟩ := Outcome.exists_of_check
    (x := KdTree.make (euclideanTag Rat 2) (metricL2Sq Rat 2) Ref.ratNum (fun _ => ![1, 2]) 5
      { Ref.optsMedian Rat 2 with stop := .maxLeafDepth 0 } 20)
    (p := fun _ => true) (by decide +kernel)
  exact ⟨⟨T, h, c136_every_point_a_leaf h (by decide) (by decide) rfl (by decide)⟩, T', h', c136_single_leaf h' rfl⟩

end Pico.Props
