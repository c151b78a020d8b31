import Verif.Proof.CoverInv
import Verif.Props.Cover
import Mathlib.Algebra.Order.Archimedean.Basic

/-!
# C65, C66, C67: the invariants of the cover tree of the examples

`dist` is the distance between two points of the space, by their indices.
-/

namespace Pico.Props

open Pico Spec

section
variable {K : Type} [Field K] [LinearOrder K] [IsStrictOrderedRing K] {γ : Type}

theorem everywhere_imp {p p' : CNode (WithBot ℤ) γ → Prop} (h : ∀ c, p c → p' c) (n : Nat) :
    ∀ c, Cover.size c ≤ n → Everywhere p c → Everywhere p' c := by
  induction n with
  | zero => intro c hc; have := Cover.size_pos c; omega
  | succ n ih =>
    intro c hc hp
    obtain ⟨h1, h2⟩ := Cover.everywhere_iff.1 hp
    refine Cover.everywhere_iff.2 ⟨h c h1, fun m hm => ih m ?_ (h2 m hm)⟩
    have h3 := Cover.wt_mem (fun _ => 1) hm
    have h4 := Cover.wt_eq (fun _ => 1) c
    simp only [Cover.size] at *
    omega

omit [IsStrictOrderedRing K] in
theorem exact_cover (b : K) (cl fl : K → ℤ) (l : WithBot ℤ) :
    (Leveling.exact b cl fl).cover l = coverDistance b l := by
  cases l <;> rfl

omit [IsStrictOrderedRing K] in
/-- Laws for any base. -/
theorem laws_any (b : K) (cl fl : K → ℤ) {dist : Nat → Nat → K} (hs : ∀ i j, dist i j = dist j i) :
    Cover.Laws False (Leveling.exact b cl fl) dist where
  comm := hs
  down_up l := by
    cases l with
    | bot => rfl
    | coe n =>
      change ((n + 1 - 1 : ℤ) : WithBot ℤ) = _
      rw [add_sub_cancel_right]
  self := False.elim
  zero := False.elim
  triangle := False.elim
  swap := False.elim
  add_le := False.elim
  up := False.elim
  ceil := False.elim
  floor := False.elim
  far := False.elim

/-- Laws for a base of at least two. -/
theorem laws_two {b : K} (hb : 2 ≤ b) {cl fl : K → ℤ} (hl : IsLogs b cl fl) {dist : Nat → Nat → K}
    (hs : ∀ i j, dist i j = dist j i) (h0 : ∀ i, dist i i = 0)
    (ht : ∀ i j k, dist i k ≤ dist i j + dist j k) :
    Cover.Laws True (Leveling.exact b cl fl) dist := by
  have hb0 : 0 < b := by linarith
  have hnn : ∀ i j, 0 ≤ dist i j := by
    intro i j
    have := ht i j i
    rw [h0, hs j i] at this
    linarith
  have hcov : ∀ l, 0 ≤ (Leveling.exact b cl fl).cover l := by
    intro l
    cases l with
    | bot => exact le_rfl
    | coe n => exact (zpow_pos hb0 n).le
  refine ⟨hs, (laws_any b cl fl hs).down_up, ?_, ?_, fun _ => ht, ?_, ?_, ?_, ?_, ?_, ?_⟩
  · intro _ i j; rw [h0]; exact hnn _ _
  · intro _ l i; rw [h0]; exact hcov l
  · intro _ x y; rw [add_comm]
  · intro _ x y z w h1 h2; exact add_le_add h1 h2
  · intro _ l
    cases l with
    | bot => change (0 : K) + 0 ≤ 0; simp
    | coe n =>
      change b ^ n + b ^ n ≤ b ^ (n + 1)
      rw [zpow_add_one₀ hb0.ne']
      have := zpow_pos hb0 n
      nlinarith
  · intro _ i j
    rcases (hnn i j).eq_or_lt with h | h
    · rw [← h]; exact hcov _
    · simp only [Leveling.exact, if_neg (not_le.2 h)]
      exact (hl _ h).2.1
  · intro _ l d h
    rcases le_or_gt d 0 with hd | hd
    · exact hd.trans (hcov _)
    · simp only [Leveling.exact, if_neg (not_le.2 hd), decide_eq_false_iff_not, not_lt] at h
      cases l with
      | bot => exact absurd h (not_le.2 (WithBot.bot_lt_coe _))
      | coe n =>
        rw [WithBot.coe_le_coe] at h
        change d ≤ b ^ (n + 1)
        refine (hl d hd).2.2.2.le.trans ?_
        exact zpow_le_zpow_right₀ (by linarith) (by omega)
  · intro _ x c p l h1 h2
    change (Leveling.exact b cl fl).cover l * 2 ≤ _ at h1
    have := ht x p c
    rw [hs p c] at this
    linarith

variable (P : StdPart (CNode (WithBot ℤ) Unit)) (fuel : Nat) (indices : List Nat)

omit [IsStrictOrderedRing K] in
/-- C65: whatever the base, the logarithms, the order of insertion and the implementation of
`std::partition`, in a finished tree every child is one level below its parent, and the children of a node
are further apart than the covering distance of their level. Only the symmetry of the distance is used. -/
theorem c65 (b : K) (cl fl : K → ℤ) {dist : Nat → Nat → K} (hs : ∀ i j, dist i j = dist j i)
    (hne : indices ≠ []) {t : CNode (WithBot ℤ) K}
    (h : Cover.build (Leveling.exact b cl fl) P dist fuel indices = .ok t) :
    LevelsDescend t ∧ SiblingsApart b dist t := by
  have hi := (Cover.build_inv (laws_any b cl fl hs) P fuel indices hne).of_ok h
  refine ⟨everywhere_imp (fun c hc => ?_) _ t le_rfl hi, everywhere_imp (fun c hc => ?_) _ t le_rfl hi⟩
  · intro m hm
    exact hc.levels m hm
  · refine hc.apart.imp_of_mem ?_
    intro x y hx _ hxy
    rw [hc.levels x hx, ← exact_cover b cl fl]
    exact hxy

/-- C66 (partial): for a base of at least two and a metric, every point below a node of a finished tree is
within the covering distance of the node. Missing: smaller bases, see `c66_false`. -/
theorem c66_partial {b : K} (hb : 2 ≤ b) {cl fl : K → ℤ} (hl : IsLogs b cl fl) {dist : Nat → Nat → K}
    (hs : ∀ i j, dist i j = dist j i) (h0 : ∀ i, dist i i = 0)
    (ht : ∀ i j k, dist i k ≤ dist i j + dist j k) (hne : indices ≠ []) {t : CNode (WithBot ℤ) K}
    (h : Cover.build (Leveling.exact b cl fl) P dist fuel indices = .ok t) : Covers b dist t := by
  have hi := (Cover.build_inv (laws_two hb hl hs h0 ht) P fuel indices hne).of_ok h
  refine everywhere_imp (fun c hc => ?_) _ t le_rfl hi
  intro p hp
  rw [← exact_cover b cl fl]
  exact hc.cover trivial p hp

/-- C67 (partial): for a base of at least two and a metric, every point below a child of a node is at least
as close to that child as to its siblings. Missing: smaller bases, see `c67_false`. -/
theorem c67_partial {b : K} (hb : 2 ≤ b) {cl fl : K → ℤ} (hl : IsLogs b cl fl) {dist : Nat → Nat → K}
    (hs : ∀ i j, dist i j = dist j i) (h0 : ∀ i, dist i i = 0)
    (ht : ∀ i j k, dist i k ≤ dist i j + dist j k) (hne : indices ≠ []) {t : CNode (WithBot ℤ) K}
    (h : Cover.build (Leveling.exact b cl fl) P dist fuel indices = .ok t) : NearestAncestor dist t := by
  have hi := (Cover.build_inv (laws_two hb hl hs h0 ht) P fuel indices hne).of_ok h
  exact everywhere_imp (fun c hc => hc.nearest trivial) _ t le_rfl hi

/-- The recorded `max_distance` is at most the covering distance (C66 with C49). -/
theorem c66_max_distance_partial {b : K} (hb : 2 ≤ b) {cl fl : K → ℤ} (hl : IsLogs b cl fl)
    {dist : Nat → Nat → K} (hs : ∀ i j, dist i j = dist j i) (h0 : ∀ i, dist i i = 0)
    (ht : ∀ i j k, dist i k ≤ dist i j + dist j k) (hne : indices ≠ []) {t : CNode (WithBot ℤ) K}
    (h : Cover.build (Leveling.exact b cl fl) P dist fuel indices = .ok t) :
    t.maxDistance ≤ coverDistance b t.level := by
  obtain ⟨⟨-, p, hp, e⟩, -⟩ := Cover.everywhere_iff.1 (c49_max_distance _ P dist fuel indices h)
  rw [e]
  exact (Cover.everywhere_iff.1 (c66_partial P fuel indices hb hl hs h0 ht hne h)).1 p hp

end

/-- The rounded real logarithms, as in `std::ceil(std::log(d) / std::log(value))`. -/
theorem isLogs_real {b : ℝ} (hb : 1 < b) :
    IsLogs b (fun d => ⌈Real.log d / Real.log b⌉) (fun d => ⌊Real.log d / Real.log b⌋) := by
  intro d hd
  have hb0 : 0 < b := by linarith
  have hlb := Real.log_pos hb
  have key : ∀ n : ℤ, Real.log (b ^ n) = n * Real.log b := fun n => Real.log_zpow b n
  have lt1 : ∀ n : ℤ, b ^ n < d ↔ (n : ℝ) < Real.log d / Real.log b := by
    intro n
    rw [lt_div_iff₀ hlb, ← key, Real.log_lt_log_iff (zpow_pos hb0 n) hd]
  have le1 : ∀ n : ℤ, b ^ n ≤ d ↔ (n : ℝ) ≤ Real.log d / Real.log b := by
    intro n
    rw [le_div_iff₀ hlb, ← key, Real.log_le_log_iff (zpow_pos hb0 n) hd]
  refine ⟨?_, ?_, ?_, ?_⟩
  · rw [lt1]
    have := Int.ceil_lt_add_one (Real.log d / Real.log b)
    push_cast
    linarith
  · rw [← not_lt, lt1, not_lt]
    exact Int.le_ceil _
  · rw [le1]
    exact Int.floor_le _
  · rw [← not_le, le1, not_le]
    push_cast
    exact Int.lt_floor_add_one _

/-- C66 and C67 for the default metric `metric_l2` over the real numbers. -/
theorem c66_l2_partial {d : Nat} {b : ℝ} (hb : 2 ≤ b) (P : StdPart (CNode (WithBot ℤ) Unit)) (fuel : Nat)
    (pts : Nat → Pt ℝ d) (indices : List Nat) (hne : indices ≠ []) {t : CNode (WithBot ℤ) ℝ}
    (h : Cover.build (Leveling.exact b (fun x => ⌈Real.log x / Real.log b⌉)
      (fun x => ⌊Real.log x / Real.log b⌋)) P
      (fun i j => (metricL2 Real.sqrt d).dist (pts i) (pts j)) fuel indices = .ok t) :
    Covers b (fun i j => (metricL2 Real.sqrt d).dist (pts i) (pts j)) t ∧
      NearestAncestor (fun i j => (metricL2 Real.sqrt d).dist (pts i) (pts j)) t :=
  ⟨c66_partial P fuel indices hb (isLogs_real (by linarith)) (fun _ _ => c41_l2.comm _ _)
      (fun i => (c41_l2.zero (pts i) (pts i)).2 rfl) (fun _ _ _ => c41_l2.triangle _ _ _) hne h,
    c67_partial P fuel indices hb (isLogs_real (by linarith)) (fun _ _ => c41_l2.comm _ _)
      (fun i => (c41_l2.zero (pts i) (pts i)).2 rfl) (fun _ _ _ => c41_l2.triangle _ _ _) hne h⟩

/-! ### Base 1.3 -/

/-- Rounded logarithms with base 13/10: a search within `[b^-20, b^60)`, any value with the right properties
elsewhere. -/
def floorFrom (b d : ℚ) : Nat → ℤ → ℤ
  | 0, n => n
  | k + 1, n => if b ^ (n + 1) ≤ d then floorFrom b d k (n + 1) else n

theorem floorFrom_spec (b d : ℚ) (k : Nat) (n : ℤ) (h1 : b ^ n ≤ d) (h2 : d < b ^ (n + k + 1)) :
    b ^ floorFrom b d k n ≤ d ∧ d < b ^ (floorFrom b d k n + 1) := by
  induction k generalizing n with
  | zero => simpa [floorFrom, h1] using h2
  | succ k ih =>
    rw [floorFrom]
    split
    next h => exact ih (n + 1) h (by push_cast at h2; rwa [show n + 1 + (k : ℤ) + 1 = n + (k + 1) + 1 by ring])
    next h => exact ⟨h1, not_le.1 h⟩

theorem exists_floor13 (d : ℚ) (hd : 0 < d) : ∃ n : ℤ, (13 / 10 : ℚ) ^ n ≤ d ∧ d < (13 / 10) ^ (n + 1) := by
  obtain ⟨n, h⟩ := exists_mem_Ico_zpow hd (by norm_num : (1 : ℚ) < 13 / 10)
  exact ⟨n, h.1, h.2⟩

/-- The logarithm rounded down. -/
noncomputable def floor13 (d : ℚ) : ℤ :=
  if (13 / 10 : ℚ) ^ (-20 : ℤ) ≤ d ∧ d < (13 / 10) ^ (60 : ℤ) then floorFrom (13 / 10) d 79 (-20)
  else if h : 0 < d then (exists_floor13 d h).choose else 0

/-- The logarithm rounded up. -/
noncomputable def ceil13 (d : ℚ) : ℤ := if (13 / 10 : ℚ) ^ floor13 d = d then floor13 d else floor13 d + 1

theorem isLogs_13 : IsLogs (13 / 10 : ℚ) ceil13 floor13 := by
  intro d hd
  have h : (13 / 10 : ℚ) ^ floor13 d ≤ d ∧ d < (13 / 10) ^ (floor13 d + 1) := by
    rw [floor13]
    split
    next h => exact floorFrom_spec _ d 79 (-20) h.1 h.2
    next =>
      exact (exists_floor13 d hd).choose_spec
  refine ⟨?_, ?_, h.1, h.2⟩
  · rw [ceil13]
    split
    next e =>
      refine lt_of_lt_of_le ?_ h.1
      exact zpow_lt_zpow_right₀ (by norm_num) (by omega)
    next e =>
      rw [add_sub_cancel_right]
      exact lt_of_le_of_ne h.1 e
  · rw [ceil13]
    split
    next e => exact e.ge
    next e => exact h.2.le

/-- The distances between points on a line. -/
def lineDist (l : List ℚ) : Nat → Nat → ℚ := fun i j => (metricL1 ℚ 1).dist (onLine l i) (onLine l j)

/-- The tree of points on a line with base 1.3, inserted one after the other. -/
noncomputable def tree13 (l : List ℚ) : Outcome (CNode (WithBot ℤ) ℚ) :=
  Cover.build (Leveling.exact (13 / 10) ceil13 floor13) (stablePart _) (lineDist l) 30 (List.range l.length)

/-- C66 is false for the recommended base 1.3: of the points 0, 1, -1 and 1.1, point 1 becomes the parent of
point -1 with a covering distance of 1.69. -/
theorem c66_false : ∃ t, tree13 [0, 1, -1, 11 / 10] = .ok t ∧
    ¬ Covers (13 / 10) (lineDist [0, 1, -1, 11 / 10]) t := by
  have h : (tree13 [0, 1, -1, 11 / 10]).check (fun t => match t.children with
      | [c] => decide (c.index = 1 ∧ 2 ∈ points c ∧ c.level = ((2 : ℤ) : WithBot ℤ))
      | _ => false) = true := by decide +kernel
  obtain ⟨t, h1, h2⟩ := Outcome.exists_of_check h
  refine ⟨t, h1, fun hc => ?_⟩
  obtain ⟨-, h3⟩ := Cover.everywhere_iff.1 hc
  split at h2
  next c hcs =>
    obtain ⟨h4, h5, h6⟩ := of_decide_eq_true h2
    have h7 := (Cover.everywhere_iff.1 (h3 c (by rw [hcs]; simp))).1 2 h5
    rw [h4, h6] at h7
    revert h7
    decide +kernel
  next => cases h2

/-- C67 is false for the recommended base 1.3: point 0 (at -0.5) is below point 3 (at 4.9), but closer to
point 5 (at -5.5), a sibling of point 3. -/
theorem c67_false : ∃ t, tree13 [-1 / 2, 0, 11 / 5, 49 / 10, -21 / 10, -11 / 2] = .ok t ∧
    ¬ NearestAncestor (lineDist [-1 / 2, 0, 11 / 5, 49 / 10, -21 / 10, -11 / 2]) t := by
  have h : (tree13 [-1 / 2, 0, 11 / 5, 49 / 10, -21 / 10, -11 / 2]).check (fun t => match t.children with
      | [c] => match c.children with
        | [a, b] => decide (a.index = 3 ∧ 0 ∈ points a ∧ b.index = 5)
        | _ => false
      | _ => false) = true := by decide +kernel
  obtain ⟨t, h1, h2⟩ := Outcome.exists_of_check h
  refine ⟨t, h1, fun hc => ?_⟩
  obtain ⟨-, h3⟩ := Cover.everywhere_iff.1 hc
  split at h2
  next c hcs =>
    obtain ⟨h3, -⟩ := Cover.everywhere_iff.1 (h3 c (by rw [hcs]; simp))
    split at h2
    next a b hab =>
      obtain ⟨h4, h5, h6⟩ := of_decide_eq_true h2
      have h7 := h3 a (by rw [hab]; simp) b (by rw [hab]; simp) 0 h5
      rw [h4, h6] at h7
      revert h7
      decide +kernel
    next => cases h2
  next => cases h2

/-! ### Examples -/

/-- The hypotheses of C65 to C67 can be met: eight points with a rebalanced node. -/
example : ∃ t, Cover.build base2 (stablePart _) (lineDist [0, 5, 8, 11, 2, 7, 16, 3]) 60 (List.range 8) =
    .ok t ∧ t.children.length = 1 ∧ (t.children.map fun c => c.children.length) = [2] := by
  have h : (Cover.build base2 (stablePart _) (lineDist [0, 5, 8, 11, 2, 7, 16, 3]) 60 (List.range 8)).check
      (fun t => decide (t.children.length = 1 ∧ (t.children.map fun c => c.children.length) = [2])) = true := by
    decide +kernel
  obtain ⟨t, h1, h2⟩ := Outcome.exists_of_check h
  exact ⟨t, h1, of_decide_eq_true h2⟩

/-- Base two: the logarithms of `Int.clog` and `Int.log`. -/
example : IsLogs (2 : ℚ) (Int.clog 2) (Int.log 2) := by
  intro d hd
  refine ⟨?_, ?_, ?_, ?_⟩
  · have := Int.zpow_pred_clog_lt_self (b := 2) (by norm_num) hd
    simpa using this
  · have := Int.self_le_zpow_clog (b := 2) (by norm_num) d
    simpa using this
  · have := Int.zpow_log_le_self (b := 2) (by norm_num) hd
    simpa using this
  · have := Int.lt_zpow_succ_log_self (b := 2) (by norm_num) d
    simpa using this

end Pico.Props
