import Verif.Model.MachineInt
import Verif.Props.Grid

/-!
# C69: integer scalars

As long as no distance overflows, the searches with an integer scalar type are exact.
-/

set_option linter.unusedSectionVars false

namespace Pico

namespace MachineInt
variable {I : MachineInt} {d : Nat} {B : ℤ}

theorem val_add (a b : I.F) : (a + b).1 = I.norm (a.1 + b.1) := rfl
theorem val_sub (a b : I.F) : (a - b).1 = I.norm (a.1 - b.1) := rfl
theorem val_mul (a b : I.F) : (a * b).1 = I.norm (a.1 * b.1) := rfl
theorem val_neg (a : I.F) : (-a).1 = I.norm (-a.1) := rfl
theorem le_iff (a b : I.F) : a ≤ b ↔ a.1 ≤ b.1 := Iff.rfl
theorem lt_iff (a b : I.F) : a < b ↔ a.1 < b.1 := Iff.rfl

theorem exactSums : ExactSums (fun a : I.F => a.1) ⊤ I.hi where
  le_iff a b := le_iff a b
  zero := rfl
  add a b _ _ h0 h0' hl := I.exact _ (I.lo_le.trans (add_nonneg h0 h0')) hl
  sub a b _ _ h0 hle hl := I.exact _ (I.lo_le.trans (sub_nonneg.2 hle)) (by linarith)

/-- The point with mathematical integers as coordinates. -/
def exactPt (x : Pt I.F d) : Pt ℤ d := fun j => (x j).1

/-- Coordinates of at most `B` in absolute value. -/
def Bounded (B : ℤ) (x : Pt I.F d) : Prop := ∀ j, |(x j).1| ≤ B

theorem sub_exact (hlo : I.lo ≤ -(2 * B)) (hhi : 2 * B ≤ I.hi) {a b : I.F} (ha : |a.1| ≤ B) (hb : |b.1| ≤ B) :
    (a - b).1 = a.1 - b.1 := by
  rw [abs_le] at ha hb
  exact I.exact _ (by linarith) (by linarith)

theorem sabs_val (hlo : I.lo ≤ -(2 * B)) (hhi : 2 * B ≤ I.hi) {a : I.F} (ha : |a.1| ≤ 2 * B) :
    (sabs a).1 = |a.1| := by
  unfold sabs
  rw [abs_le] at ha
  split_ifs with h
  · have h' : a.1 < 0 := h
    rw [val_neg, abs_of_neg h', I.exact _ (by linarith) (by linarith)]
  · rw [abs_of_nonneg (not_lt.1 h)]

/-- The test on which side of two coordinates the query lies is exact. -/
theorem sign_exact (hlo : I.lo ≤ -(4 * B)) (hhi : 4 * B ≤ I.hi) {a b v : I.F} (ha : |a.1| ≤ B)
    (hb : |b.1| ≤ B) (hv : |v.1| ≤ B) (hab : a ≤ b) :
    (a + b - v - v > 0 → v ≤ b) ∧ (¬ a + b - v - v > 0 → a ≤ v) := by
  rw [abs_le] at ha hb hv
  have e1 : (a + b).1 = a.1 + b.1 := I.exact _ (by linarith) (by linarith)
  have e2 : (a + b - v).1 = a.1 + b.1 - v.1 := by
    rw [val_sub, e1]; exact I.exact _ (by linarith) (by linarith)
  have e3 : (a + b - v - v).1 = a.1 + b.1 - v.1 - v.1 := by
    rw [val_sub, e2]; exact I.exact _ (by linarith) (by linarith)
  have hab' : a.1 ≤ b.1 := hab
  have e4 : (a + b - v - v > 0) ↔ 0 < a.1 + b.1 - v.1 - v.1 := by rw [← e3]; exact Iff.rfl
  rw [e4]
  constructor
  · intro h
    change v.1 ≤ b.1
    linarith
  · intro h
    change a.1 ≤ v.1
    linarith

end MachineInt

namespace Props

open Spec MachineInt

section
variable {I : MachineInt} {d : Nat} {N : Num I.F} {pts : Nat → Pt I.F d} {n : Nat} {o : BuildOpts I.F d}
  {fuel : Nat} {T : KdTree I.F d (Branch1 I.F d)} {B : ℤ}

theorem exactAt_int {M : Metric I.F d} (f : ℤ → ℤ)
    (hone : ∀ (_ : Fin d) (x : I.F), |x.1| ≤ 2 * B → (M.one x).1 = f x.1)
    (hf0 : ∀ x, 0 ≤ f x) (hfm : ∀ x y, |x| ≤ |y| → f x ≤ f y)
    (hdist : ∀ x y, M.dist x y = loopSum fun j => M.one (x j - y j))
    (hlo : I.lo ≤ -(4 * B)) (hhi : 4 * B ≤ I.hi)
    (h : KdTree.make (euclideanTag I.F d) M N pts n o fuel = .ok T) (hR : Representable N pts n o)
    (hn : 0 < n) (hr : o.rule ≠ .midpoint) (q : Pt I.F d) (hq : Bounded B q)
    (hp : ∀ i < n, Bounded B (pts i))
    (hlim : ∀ i < n, ∑ j, f ((q j).1 - (pts i j).1) ≤ I.hi) :
    ExactAt T q ∧ ∀ i < n, (M.dist q (pts i)).1 = ∑ j, f ((q j).1 - (pts i j).1) := by
  have hfs : ∀ x, f (-x) = f x := fun x => le_antisymm (hfm _ _ (by rw [abs_neg])) (hfm _ _ (by rw [abs_neg]))
  have hdiff : ∀ {x y : Pt I.F d}, Bounded B x → Bounded B y → ∀ j, (x j - y j).1 = (x j).1 - (y j).1 ∧
      |(x j).1 - (y j).1| ≤ 2 * B := by
    intro x y hx hy j
    have hB : 0 ≤ B := (abs_nonneg _).trans (hx j)
    refine ⟨sub_exact (B := B) (by linarith) (by linarith) (hx j) (hy j), ?_⟩
    have := abs_sub (x j).1 (y j).1
    have h1 := hx j
    have h2 := hy j
    linarith
  have hterm : ∀ i < n, ∀ j, (M.one (q j - pts i j)).1 = f ((q j).1 - (pts i j).1) := by
    intro i hi j
    obtain ⟨e, hb⟩ := hdiff hq (hp i hi) j
    rw [hone j _ (by rw [e]; exact hb), e]
  have hterm' : ∀ i < n, ∀ j, (M.one (pts i j - q j)).1 = f ((q j).1 - (pts i j).1) := by
    intro i hi j
    obtain ⟨e, hb⟩ := hdiff (hp i hi) hq j
    rw [hone j _ (by rw [e]; exact hb), e, ← hfs, neg_sub]
  obtain ⟨_, _, _, _, _, hb⟩ := KdTree.make_ok h
  obtain ⟨_, box, hcr⟩ := buildTree_created hb
  have hg := hcr.guardExact (n := n) rfl hR.num hr (stopOk_of_created hcr (by simpa using hn))
    M q (fun i hi => List.mem_range.1 hi) hR.points
    (fun a ha b hb j hab => sign_exact (B := B) hlo hhi (hp a ha j) (hp b hb j) (hq j) hab)
    (by
      intro k hk i hi j hc
      change (M.one (pts k j - q j)).1 ≤ (M.one (q j - pts i j)).1
      rw [hterm' k hk j, hterm i hi j]
      apply hfm
      rcases hc with ⟨a1, a2⟩ | ⟨a1, a2⟩
      · have b1 : (q j).1 ≤ (pts k j).1 := a1
        have b2 : (pts k j).1 ≤ (pts i j).1 := a2
        rw [abs_of_nonpos (by linarith), abs_of_nonpos (by linarith)]
        linarith
      · have b1 : (pts k j).1 ≤ (q j).1 := a1
        have b2 : (pts i j).1 ≤ (pts k j).1 := a2
        rw [abs_of_nonneg (by linarith), abs_of_nonneg (by linarith)]
        linarith)
    [] [] rfl
  simp only [List.nil_append, List.append_nil] at hg
  obtain ⟨hE, hv⟩ := exactAt_grid exactSums h hR hn hr q (fun i _ => hdist _ _)
    (fun i hi j => Subtype.ext (by rw [hterm' i hi j, hterm i hi j]))
    (fun i hi j => AddSubgroup.mem_top _)
    (fun i hi j => by rw [hterm i hi j]; exact hf0 _)
    (fun i hi => by
      rw [Finset.sum_congr rfl fun j _ => hterm i hi j]
      exact hlim i hi)
    hg
  exact ⟨hE, fun i hi => by rw [hv i hi]; exact Finset.sum_congr rfl fun j _ => hterm i hi j⟩

/-- C69 for `metric_l1`: coordinates of at most `B`, `4B` and `d * 2B` fit the type. -/
theorem c69_l1 (hlo : I.lo ≤ -(4 * B)) (hhi : 4 * B ≤ I.hi) (hd : d * (2 * B) ≤ I.hi)
    (h : KdTree.make (euclideanTag I.F d) (metricL1 I.F d) N pts n o fuel = .ok T)
    (hR : Representable N pts n o) (hn : 0 < n) (hr : o.rule ≠ .midpoint) (q : Pt I.F d)
    (hq : Bounded B q) (hp : ∀ i < n, Bounded B (pts i))
    (hbig : ∀ i < n, Spec.l1 (exactPt q) (exactPt (pts i)) < N.big.1) :
    ∃ dist : Nat → I.F, (∀ i < n, (dist i).1 = Spec.l1 (exactPt q) (exactPt (pts i))) ∧
      (∀ nn, IsNN n dist (T.searchNn q nn)) ∧
      (∀ k prior, 0 < k → ∃ out, T.searchKnn q k prior = .ok out ∧ IsKnn n k dist out) ∧
      ∀ sorter r prior sort, IsRadius n dist r (T.searchRadius sorter q r prior sort) := by
  obtain ⟨hE, hv⟩ := exactAt_int (M := metricL1 I.F d) (B := B) (fun x => |x|)
    (fun j x hx => by
      have hB : 0 ≤ 2 * B := (abs_nonneg _).trans hx
      exact sabs_val (B := B) (by linarith) (by linarith) hx)
    (fun x => abs_nonneg x) (fun x y hxy => hxy)
    (fun x y => rfl) hlo hhi h hR hn hr q hq hp
    (by
      intro i hi
      refine le_trans (Finset.sum_le_card_nsmul _ _ (2 * B) fun j _ => ?_) ?_
      · have := abs_sub (q j).1 (pts i j).1
        have h1 := hq j
        have h2 := hp i hi j
        linarith
      · rw [Finset.card_univ, Fintype.card_fin, nsmul_eq_mul]
        exact hd)
  have hb : ∀ i < n, (metricL1 I.F d).dist q (pts i) < N.big := by
    intro i hi
    rw [lt_iff, hv i hi]
    exact hbig i hi
  refine ⟨fun i => (metricL1 I.F d).dist q (pts i), hv, ?_, ?_, ?_⟩
  · intro nn; exact nn_of_exact h hE hn rfl hb nn
  · intro k prior hk
    obtain ⟨out, h1, h2, _⟩ := knn_of_exact h hE hn rfl hb k hk prior
    exact ⟨out, h1, h2⟩
  · intro sorter r prior sort
    exact (radius_of_exact h hE rfl sorter r prior sort).1

/-- C69 for `metric_l2_squared`: `4B` and `d * (2B)^2` fit the type. -/
theorem c69_l2 (hlo : I.lo ≤ -(4 * B)) (hhi : 4 * B ≤ I.hi) (hd : d * (2 * B) ^ 2 ≤ I.hi)
    (h : KdTree.make (euclideanTag I.F d) (metricL2Sq I.F d) N pts n o fuel = .ok T)
    (hR : Representable N pts n o) (hn : 0 < n) (hr : o.rule ≠ .midpoint) (q : Pt I.F d)
    (hq : Bounded B q) (hp : ∀ i < n, Bounded B (pts i))
    (hbig : ∀ i < n, Spec.l2Sq (exactPt q) (exactPt (pts i)) < N.big.1) :
    ∃ dist : Nat → I.F, (∀ i < n, (dist i).1 = Spec.l2Sq (exactPt q) (exactPt (pts i))) ∧
      (∀ nn, IsNN n dist (T.searchNn q nn)) ∧
      (∀ k prior, 0 < k → ∃ out, T.searchKnn q k prior = .ok out ∧ IsKnn n k dist out) ∧
      ∀ sorter r prior sort, IsRadius n dist r (T.searchRadius sorter q r prior sort) := by
  have hd' : ∀ (_ : Fin d), (2 * B) ^ 2 ≤ I.hi := by
    intro j
    have : (1 : ℤ) ≤ d := by exact_mod_cast j.pos
    have h2 : 0 ≤ (2 * B) ^ 2 := sq_nonneg _
    nlinarith
  obtain ⟨hE, hv⟩ := exactAt_int (M := metricL2Sq I.F d) (B := B) (fun x => x ^ 2)
    (fun j x hx => by
      change (x * x).1 = _
      have h1 : x.1 ^ 2 ≤ (2 * B) ^ 2 := sq_le_sq' (by have := abs_le.1 hx; linarith) (abs_le.1 hx).2
      rw [val_mul, ← pow_two]
      exact I.exact _ (I.lo_le.trans (sq_nonneg _)) (h1.trans (hd' j)))
    (fun x => sq_nonneg x) (fun x y hxy => sq_le_sq.2 hxy)
    (fun x y => rfl) hlo hhi h hR hn hr q hq hp
    (by
      intro i hi
      refine le_trans (Finset.sum_le_card_nsmul _ _ ((2 * B) ^ 2) fun j _ => ?_) ?_
      · have h0 := abs_sub (q j).1 (pts i j).1
        have h1 := hq j
        have h2 := hp i hi j
        have h3 : |(q j).1 - (pts i j).1| ≤ 2 * B := by linarith
        exact sq_le_sq' (by have := abs_le.1 h3; linarith) (abs_le.1 h3).2
      · rw [Finset.card_univ, Fintype.card_fin, nsmul_eq_mul]
        exact hd)
  have hb : ∀ i < n, (metricL2Sq I.F d).dist q (pts i) < N.big := by
    intro i hi
    rw [lt_iff, hv i hi]
    exact hbig i hi
  refine ⟨fun i => (metricL2Sq I.F d).dist q (pts i), hv, ?_, ?_, ?_⟩
  · intro nn; exact nn_of_exact h hE hn rfl hb nn
  · intro k prior hk
    obtain ⟨out, h1, h2, _⟩ := knn_of_exact h hE hn rfl hb k hk prior
    exact ⟨out, h1, h2⟩
  · intro sorter r prior sort
    exact (radius_of_exact h hE rfl sorter r prior sort).1

end

/-- `int`. -/
abbrev int32 : MachineInt := wrapping 32 (by decide)

/-- Five points with `int` coordinates, two of them equal. -/
def ints5 : Nat → Pt int32.F 2
  | 0 => ![int32.ofInt 0, int32.ofInt 0]
  | 1 => ![int32.ofInt 4000, int32.ofInt (-9)]
  | 2 => ![int32.ofInt 3, int32.ofInt 9999]
  | 3 => ![int32.ofInt 3, int32.ofInt 9999]
  | _ => ![int32.ofInt (-10000), int32.ofInt 2]

theorem ints5_representable : Representable int32.num ints5 5 (Ref.optsSliding int32.F 2) where
  num := by decide +kernel
  points i hi j := by
    have : ∀ i < 5, ∀ j, int32.num.low ≤ ints5 i j ∧ ints5 i j ≤ int32.num.big := by decide +kernel
    exact this i hi j
  bounds := trivial
  mid h := by simp [Ref.optsSliding] at h

/-- `int` coordinates of up to 10000 in the plane. -/
example : ∃ T dist, KdTree.make (euclideanTag int32.F 2) (metricL2Sq int32.F 2) int32.num ints5 5
      (Ref.optsSliding int32.F 2) 10 = .ok T ∧
      IsNN 5 dist (T.searchNn ![int32.ofInt 2000, int32.ofInt (-7000)] ⟨0, 0⟩) ∧ (dist 0).1 = 53000000 := by
  obtain ⟨T, h1, -⟩ := Outcome.exists_of_check (x := KdTree.make (euclideanTag int32.F 2)
    (metricL2Sq int32.F 2) int32.num ints5 5 (Ref.optsSliding int32.F 2) 10) (p := fun _ => true)
    (by decide +kernel)
  obtain ⟨dist, hd, h3, _⟩ := c69_l2 (B := 10000) (by decide +kernel) (by decide +kernel) (by decide +kernel) h1
    ints5_representable (by decide) (by decide)
    ![int32.ofInt 2000, int32.ofInt (-7000)]
    (by unfold Bounded; decide +kernel) (by unfold Bounded; decide +kernel) (by decide +kernel)
  refine ⟨T, dist, h1, h3 _, ?_⟩
  rw [hd 0 (by decide)]
  decide +kernel

/-- Two points on the line. -/
def far2 : Nat → Pt int32.F 1
  | 0 => ![int32.ofInt 65536]
  | _ => ![int32.ofInt 1]

/-- The bound is needed: on a machine whose `int` wraps around, the point 65536 is reported as the nearest
neighbour of 0, at distance 0, though the point 1 is nearer. -/
theorem c69_overflow : ∃ T, KdTree.make (euclideanTag int32.F 1) (metricL2Sq int32.F 1) int32.num far2 2
      (Ref.optsSliding int32.F 1) 10 = .ok T ∧
    (T.searchNn ![int32.ofInt 0] ⟨0, 0⟩).index = 0 ∧ (T.searchNn ![int32.ofInt 0] ⟨0, 0⟩).distance = 0 ∧
    Spec.l2Sq (exactPt (I := int32) ![int32.ofInt 0]) (exactPt (far2 1)) = 1 ∧
    Spec.l2Sq (exactPt (I := int32) ![int32.ofInt 0]) (exactPt (far2 0)) = 2 ^ 32 := by
  obtain ⟨T, h1, h2⟩ := Outcome.exists_of_check (x := KdTree.make (euclideanTag int32.F 1)
    (metricL2Sq int32.F 1) int32.num far2 2 (Ref.optsSliding int32.F 1) 10)
    (p := fun T => (T.searchNn ![int32.ofInt 0] ⟨0, 0⟩).index = 0 ∧
      (T.searchNn ![int32.ofInt 0] ⟨0, 0⟩).distance = 0) (by decide +kernel)
  obtain ⟨h3, h4⟩ := of_decide_eq_true h2
  exact ⟨T, h1, h3, h4, by decide +kernel, by decide +kernel⟩

end Props

end Pico
