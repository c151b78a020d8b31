import Verif.Proof.Rounding
import Verif.SpecTree

/-!
# Error bound for rounded arithmetic

The incremental distance drifts away from the sum of the offsets with every step down the tree.  The drift
is bounded by the height of the tree.
-/

set_option linter.unusedSectionVars false

namespace Pico

section Steps
variable {α : Type} [LinearOrder α] [Zero α] [Add α] [Sub α] {d : Nat} {β σ : Type}
variable (splitDim : β → Fin d) (pick : β → Bool × α) (V : Visitor α σ) (dist : Nat → α)
  (indices : List Nat)

/-- The traversal with a bound on every single point that may change with each step down. `P m D off i`:
after `m` offset updates the running distance `D` and the offsets `off` are admissible for point `i`. -/
theorem searchNearest_steps (term : Fin d → Nat → α) (P : Nat → α → Pt α d → Nat → Prop)
    (A : Nat → Prop) (hmono : ∀ m D off i, P m D off i → P (m + 1) D off i)
    (hstep : ∀ m D off i data, A i → P m D off i → (∀ j, off j ≤ term j i) →
      (pick data).2 ≤ term (splitDim data) i →
      P (m + 1) (D - off (splitDim data) + (pick data).2)
        (Function.update off (splitDim data) (pick data).2) i)
    (Inv : σ → Prop) (hV : Shrinks V dist A Inv)
    (t : Tree β) (m : Nat) (D : α) (st : Pt α d × σ) (hA : ∀ i ∈ t.elems indices, A i)
    (hG : Guard splitDim pick indices term t) (hP : ∀ i ∈ t.elems indices, P m D st.1 i)
    (hoff : ∀ i ∈ t.elems indices, ∀ j, st.1 j ≤ term j i) (hI : Inv st.2) :
    ∃ vis skip, (vis ++ skip).Perm (t.elems indices) ∧
      searchNearest splitDim pick V dist indices t D st = (st.1, visitAll V dist vis st.2) ∧
      ∀ i ∈ skip, ∃ D' off', P (m + Spec.height t) D' off' i ∧ (∀ j, off' j ≤ term j i) ∧
        V.max (visitAll V dist vis st.2) < D' := by
  have hmono' : ∀ k m D off i, P m D off i → P (m + k) D off i := by
    intro k
    induction k with
    | zero => intro m D off i h; exact h
    | succ k ih => intro m D off i h; exact hmono _ _ _ _ (ih m D off i h)
  have hle : ∀ a b D off i, a ≤ b → P a D off i → P b D off i := by
    intro a b D off i hab h
    have := hmono' (b - a) a D off i h
    rwa [Nat.add_sub_cancel' hab] at this
  induction t generalizing m D st with
  | leaf b e =>
    exact ⟨slice indices b e, [], by simp [Tree.elems], by simp [searchNearest], by simp⟩
  | branch data l r ihl ihr =>
    have key : ∀ (t1 t2 : Tree β), Spec.height t1 ≤ max (Spec.height l) (Spec.height r) →
        Spec.height t2 ≤ max (Spec.height l) (Spec.height r) →
        (∀ (m : Nat) (D : α) (st : Pt α d × σ), (∀ i ∈ t1.elems indices, P m D st.1 i) →
          (∀ i ∈ t1.elems indices, ∀ j, st.1 j ≤ term j i) →
          Inv st.2 → ∃ vis skip, (vis ++ skip).Perm (t1.elems indices) ∧
          searchNearest splitDim pick V dist indices t1 D st = (st.1, visitAll V dist vis st.2) ∧
          ∀ i ∈ skip, ∃ D' off', P (m + Spec.height t1) D' off' i ∧ (∀ j, off' j ≤ term j i) ∧
            V.max (visitAll V dist vis st.2) < D') →
        (∀ (m : Nat) (D : α) (st : Pt α d × σ), (∀ i ∈ t2.elems indices, P m D st.1 i) →
          (∀ i ∈ t2.elems indices, ∀ j, st.1 j ≤ term j i) →
          Inv st.2 → ∃ vis skip, (vis ++ skip).Perm (t2.elems indices) ∧
          searchNearest splitDim pick V dist indices t2 D st = (st.1, visitAll V dist vis st.2) ∧
          ∀ i ∈ skip, ∃ D' off', P (m + Spec.height t2) D' off' i ∧ (∀ j, off' j ≤ term j i) ∧
            V.max (visitAll V dist vis st.2) < D') →
        (∀ i ∈ t1.elems indices, i ∈ (Tree.branch data l r).elems indices) →
        (∀ i ∈ t2.elems indices, i ∈ (Tree.branch data l r).elems indices) →
        (∀ i ∈ t2.elems indices, (pick data).2 ≤ term (splitDim data) i) →
        ∃ vis skip, (vis ++ skip).Perm (t1.elems indices ++ t2.elems indices) ∧
          (let st1 := searchNearest splitDim pick V dist indices t1 D st
           let oldOffset := st1.1 (splitDim data)
           let D' := D - oldOffset + (pick data).2
           if V.max st1.2 ≥ D' then
            let st' := (Function.update st1.1 (splitDim data) (pick data).2, st1.2)
            let st2 := searchNearest splitDim pick V dist indices t2 D' st'
            (Function.update st2.1 (splitDim data) oldOffset, st2.2)
           else st1) = (st.1, visitAll V dist vis st.2) ∧
          ∀ i ∈ skip, ∃ D' off', P (m + Spec.height (Tree.branch data l r)) D' off' i ∧
            (∀ j, off' j ≤ term j i) ∧ V.max (visitAll V dist vis st.2) < D' := by
      intro t1 t2 hh1 hh2 h1 h2 hs1 hs2 hg
      obtain ⟨v1, s1, hp1, he1, hk1⟩ := h1 m D st (fun i hi => hP i (hs1 i hi))
        (fun i hi => hoff i (hs1 i hi)) hI
      have hv1 : ∀ i ∈ v1, A i := fun i hi =>
        hA i (hs1 i (hp1.subset (List.mem_append_left _ hi)))
      have hI1 := (hV.visitAll v1 hv1 st.2 hI).1
      dsimp only
      rw [he1]
      dsimp only
      have hP' : ∀ i ∈ t2.elems indices, P (m + 1) (D - st.1 (splitDim data) + (pick data).2)
          (Function.update st.1 (splitDim data) (pick data).2) i := fun i hi =>
        hstep m D st.1 i data (hA i (hs2 i hi)) (hP i (hs2 i hi)) (hoff i (hs2 i hi)) (hg i hi)
      have hoff' : ∀ i ∈ t2.elems indices, ∀ j,
          Function.update st.1 (splitDim data) (pick data).2 j ≤ term j i := by
        intro i hi j
        by_cases hj : j = splitDim data
        · subst hj; simpa using hg i hi
        · simpa [Function.update, hj] using hoff i (hs2 i hi) j
      have hH : Spec.height (Tree.branch data l r) = max (Spec.height l) (Spec.height r) + 1 := rfl
      rw [hH]
      split_ifs with hc
      · obtain ⟨v2, s2, hp2, he2, hk2⟩ := h2 (m + 1) (D - st.1 (splitDim data) + (pick data).2)
          (Function.update st.1 (splitDim data) (pick data).2, visitAll V dist v1 st.2)
          hP' hoff' hI1
        have hv2 : ∀ i ∈ v2, A i := fun i hi =>
          hA i (hs2 i (hp2.subset (List.mem_append_left _ hi)))
        refine ⟨v1 ++ v2, s1 ++ s2, ?_, ?_, ?_⟩
        · have := hp1.append hp2
          refine List.Perm.trans ?_ this
          simp only [List.append_assoc]
          refine List.Perm.append_left _ ?_
          rw [← List.append_assoc, ← List.append_assoc]
          exact List.Perm.append_right _ List.perm_append_comm
        · rw [he2]
          simp [visitAll_append]
        · intro i hi
          rw [visitAll_append]
          rcases List.mem_append.1 hi with hi | hi
          · obtain ⟨D', off', a1, a2, a3⟩ := hk1 i hi
            exact ⟨D', off', hle _ _ _ _ _ (by omega) a1, a2,
              lt_of_le_of_lt (hV.visitAll v2 hv2 _ hI1).2 a3⟩
          · obtain ⟨D', off', a1, a2, a3⟩ := hk2 i hi
            exact ⟨D', off', hle _ _ _ _ _ (by omega) a1, a2, a3⟩
      · refine ⟨v1, s1 ++ t2.elems indices, ?_, rfl, ?_⟩
        · rw [← List.append_assoc]
          exact hp1.append_right _
        · intro i hi
          rcases List.mem_append.1 hi with hi | hi
          · obtain ⟨D', off', a1, a2, a3⟩ := hk1 i hi
            exact ⟨D', off', hle _ _ _ _ _ (by omega) a1, a2, a3⟩
          · exact ⟨_, _, hle _ _ _ _ _ (by omega) (hP' i hi), hoff' i hi, not_le.1 hc⟩
    have hsl : ∀ i ∈ l.elems indices, i ∈ (Tree.branch data l r).elems indices :=
      fun i hi => List.mem_append_left _ hi
    have hsr : ∀ i ∈ r.elems indices, i ∈ (Tree.branch data l r).elems indices :=
      fun i hi => List.mem_append_right _ hi
    have ihl' := fun m D st hP ho hI => ihl m D st (fun i hi => hA i (hsl i hi)) hG.2.1 hP ho hI
    have ihr' := fun m D st hP ho hI => ihr m D st (fun i hi => hA i (hsr i hi)) hG.2.2 hP ho hI
    cases hb : (pick data).1 with
    | true =>
      have hg := hG.1
      simp only [hb, if_true] at hg
      obtain ⟨vis, skip, hp, he, hk⟩ := key l r (le_max_left _ _) (le_max_right _ _) ihl' ihr' hsl hsr hg
      refine ⟨vis, skip, hp, ?_, hk⟩
      rw [← he]
      simp only [searchNearest, hb, if_true]
    | false =>
      have hg := hG.1
      simp only [hb, if_false, Bool.false_eq_true] at hg
      obtain ⟨vis, skip, hp, he, hk⟩ := key r l (le_max_right _ _) (le_max_left _ _) ihr' ihl' hsr hsl hg
      refine ⟨vis, skip, hp.trans List.perm_append_comm, ?_, hk⟩
      rw [← he]
      simp only [searchNearest, hb, if_false, Bool.false_eq_true]

end Steps

section Error
variable {K : Type} [Field K] [LinearOrder K] [IsStrictOrderedRing K] (R : Rounding K) {d : Nat}

/-- The relative error of an addition (or subtraction) of scalars is at most `u`. -/
def Rounding.Error (u : K) : Prop :=
  ∀ x y, R.rd x = x → R.rd y = y → |R.rd (x + y) - (x + y)| ≤ u * |x + y|

theorem roundBits_relative (p : Nat) (x : ℚ) : |roundBits p x - x| ≤ 1 / 2 ^ (p + 1) * |x| := by
  change |(binary p).rd x - x| ≤ _
  have key : ∀ x : ℚ, 0 < x → |(binary p).rd x - x| ≤ 1 / 2 ^ (p + 1) * |x| := by
    intro x hx
    refine (binary_error hx).trans ?_
    rw [abs_of_pos hx]
    have h1 := (log_bounds hx).1
    have e : (2 : ℚ) ^ lastPlace p x = 2 ^ Int.log 2 x / 2 ^ p := by
      unfold lastPlace
      rw [zpow_sub₀ (by norm_num), zpow_natCast]
    rw [e, pow_succ]
    have hp : (0 : ℚ) < 2 ^ p := by positivity
    rw [div_div, one_div, inv_mul_eq_div]
    exact div_le_div_of_nonneg_right h1 (by positivity)
  rcases lt_trichotomy x 0 with h | h | h
  · have := key (-x) (by linarith)
    rw [(binary p).odd, show -(binary p).rd x - -x = -((binary p).rd x - x) by ring, abs_neg,
      abs_neg] at this
    exact this
  · subst h; rw [(binary p).rd_zero]; simp
  · exact key x h

theorem binary_relative (p : Nat) : (binary p).Error (1 / 2 ^ (p + 1)) :=
  fun x y _ _ => roundBits_relative p (x + y)

/-- Gradual underflow does not hurt sums: they are exact below the normal range. -/
theorem ieee_relative (p : Nat) (e : ℤ) : (ieee p e).Error (1 / 2 ^ (p + 1)) := by
  intro x y hx hy
  obtain ⟨a, ha⟩ := roundTiny_multiple hx
  obtain ⟨b, hb⟩ := roundTiny_multiple hy
  have e1 : x + y = ((a + b : ℤ) : ℚ) * 2 ^ e := by rw [ha, hb]; push_cast; ring
  have key : ∀ (m : ℤ) (z : ℚ), 0 ≤ m → z = m * 2 ^ e →
      |roundTiny p e z - z| ≤ 1 / 2 ^ (p + 1) * |z| := by
    intro m z hm hz
    have hz0 : 0 ≤ z := by
      rw [hz]
      have : (0 : ℚ) ≤ m := by exact_mod_cast hm
      positivity
    rw [roundTiny_of_nonneg hz0]
    by_cases h : (2 : ℚ) ^ (e + p) ≤ z
    · have := roundBits_relative p z
      rw [roundBits_of_pos (lt_of_lt_of_le (by positivity) h)] at this
      unfold roundTinyPos
      rw [if_pos h]
      exact this
    · have h1 := (not_le.1 h).le
      rw [hz] at h1
      have := tiny_exact_of_le (p := p) hm h1
      rw [← hz] at this
      rw [this, sub_self, abs_zero]
      positivity
  change |roundTiny p e (x + y) - (x + y)| ≤ _
  rcases le_total 0 (a + b) with h | h
  · exact key _ _ h e1
  · have := key (-(a + b)) (-(x + y)) (by omega) (by rw [e1]; push_cast; ring)
    rw [roundTiny_neg, show -roundTiny p e (x + y) - -(x + y) = -(roundTiny p e (x + y) - (x + y)) by ring,
      abs_neg, abs_neg] at this
    exact this

variable {R} {u : K}

theorem Rounding.Error.le (h : R.Error u) (hu0 : 0 ≤ u) {a b : R.F} {y : K} (hxy : a.1 + b.1 ≤ y)
    (hy : 0 ≤ y) : (a + b).1 ≤ (1 + u) * y := by
  rw [R.val_add]
  rcases le_total 0 (a.1 + b.1) with h0 | h0
  · have h2 := (abs_le.1 (h _ _ a.2 b.2)).2
    rw [abs_of_nonneg h0] at h2
    nlinarith
  · have h1 := R.mono _ _ h0
    rw [R.rd_zero] at h1
    nlinarith

theorem Rounding.sub_eq (a b : R.F) : a - b = a + -b :=
  Subtype.ext (by rw [R.val_sub, R.val_add, R.val_neg, sub_eq_add_neg])

theorem Rounding.Error.ge (h : R.Error u) {a b : R.F} (hx : 0 ≤ a.1 + b.1) :
    (1 - u) * (a.1 + b.1) ≤ (a + b).1 := by
  have h2 := (abs_le.1 (h _ _ a.2 b.2)).1
  rw [abs_of_nonneg hx] at h2
  rw [R.val_add]
  linarith

/-- A rounded sum of non-negative terms is not much smaller than the exact sum. -/
theorem loopSum_ge (h : R.Error u) (hu0 : 0 ≤ u) (hu : u ≤ 1) (f : Fin d → R.F) (hf : ∀ j, 0 ≤ f j) :
    (1 - u) ^ d * ∑ j, (f j).1 ≤ (loopSum f).1 := by
  have key : ∀ (l : List (Fin d)) (acc : R.F), 0 ≤ acc.1 →
      (1 - u) ^ l.length * (acc.1 + (l.map fun j => (f j).1).sum) ≤
        (l.foldl (fun acc j => acc + f j) acc).1 := by
    intro l
    induction l with
    | nil => intro acc _; simp
    | cons a l ih =>
      intro acc hacc
      rw [List.foldl_cons]
      have ha : 0 ≤ (f a).1 := hf a
      have h0 : 0 ≤ acc.1 + (f a).1 := by linarith
      have h1 : (1 - u) * (acc.1 + (f a).1) ≤ (acc + f a).1 := h.ge h0
      have hnn : 0 ≤ (acc + f a).1 := le_trans (mul_nonneg (by linarith) h0) h1
      refine le_trans ?_ (ih (acc + f a) hnn)
      have hs : 0 ≤ (l.map fun j => (f j).1).sum := by
        apply List.sum_nonneg
        intro x hx
        obtain ⟨j, _, rfl⟩ := List.mem_map.1 hx
        exact hf j
      rw [List.length_cons, pow_succ, mul_assoc]
      refine mul_le_mul_of_nonneg_left ?_ (pow_nonneg (by linarith) _)
      rw [List.map_cons, List.sum_cons, ← add_assoc, mul_add]
      refine add_le_add h1 ?_
      have : u * (l.map fun j => (f j).1).sum ≥ 0 := mul_nonneg hu0 hs
      linarith
  have := key (List.finRange d) 0 le_rfl
  rw [List.length_finRange] at this
  rw [← List.sum_ofFn, List.ofFn_eq_map]
  unfold loopSum
  convert this using 2
  rw [R.val_zero, zero_add]

variable {β : Type} {M : Metric R.F d} {N : Num R.F} {pts : Nat → Pt R.F d} {n : Nat} {o : BuildOpts R.F d}
  {fuel : Nat}

/-- Every point is presented to the visitor, except for points whose distance, times `hi`, is at least the
final `max()`, times `lo`. -/
def NearlyExact (T : KdTree R.F d β) (q : Pt R.F d) (dist : Nat → R.F) (n : Nat) (lo hi : K) : Prop :=
  ∀ (σ : Type) (V : Visitor R.F σ) (Inv : σ → Prop) (s : σ), Shrinks V dist (· < n) Inv → Inv s →
    ∃ vis skip, (vis ++ skip).Perm (List.range n) ∧ T.searchNearest q V s = visitAll V dist vis s ∧
      ∀ i ∈ skip, lo * (V.max (T.searchNearest q V s)).1 ≤ hi * (dist i).1

/-- The invariant of one step down: offsets are not negative, and the running distance exceeds their sum by at most the
drift of `m` steps. -/
def Drift (u S : K) (m : Nat) (D : R.F) (off : Pt R.F d) : Prop :=
  (∀ j, 0 ≤ (off j).1) ∧ D.1 ≤ ∑ j, (off j).1 + ((1 + u) ^ (2 * m) - 1) * S

theorem Drift.mono (hu0 : 0 ≤ u) {S : K} (hS : 0 ≤ S) {m : Nat} {D : R.F} {off : Pt R.F d} (h : Drift u S m D off) :
    Drift u S (m + 1) D off := by
  refine ⟨h.1, h.2.trans ?_⟩
  have : (1 + u) ^ (2 * m) ≤ (1 + u) ^ (2 * (m + 1)) := pow_le_pow_right₀ (by linarith) (by omega)
  have := mul_le_mul_of_nonneg_right (sub_le_sub_right this 1) hS
  linarith

theorem Drift.step (hu : R.Error u) (hu0 : 0 ≤ u) {term : Fin d → R.F} (hterm : ∀ j, 0 ≤ term j) {m : Nat} {D : R.F}
    {off : Pt R.F d} (h : Drift u (∑ j, (term j).1) m D off) (a3 : ∀ j, off j ≤ term j) {j0 : Fin d} {x : R.F}
    (hx0 : 0 ≤ x) (a4 : x ≤ term j0) :
    Drift u (∑ j, (term j).1) (m + 1) (D - off j0 + x) (Function.update off j0 x) := by
  obtain ⟨a1, a2⟩ := h
  have h1u : 1 ≤ 1 + u := by linarith
  have hx0 : 0 ≤ x.1 := hx0
  set S := ∑ j, (term j).1 with hS
  have hS0 : 0 ≤ S := Finset.sum_nonneg fun j _ => hterm j
  refine ⟨?_, ?_⟩
  · intro j
    by_cases hj : j = j0
    · subst hj; simpa using hx0
    · simpa [Function.update, hj] using a1 j
  · have hsum : ∑ j, (Function.update off j0 x j).1 = ∑ j, (off j).1 - (off j0).1 + x.1 := by
      have e : ∀ j, (Function.update off j0 x j).1 = Function.update (fun j => (off j).1) j0 x.1 j := by
        intro j
        by_cases hj : j = j0
        · subst hj; simp
        · simp [Function.update, hj]
      simp only [e]
      rw [Finset.sum_update_of_mem (Finset.mem_univ j0),
        ← Finset.add_sum_erase _ _ (Finset.mem_univ j0), Finset.sdiff_singleton_eq_erase]
      ring
    have hrest : 0 ≤ ∑ j, (off j).1 - (off j0).1 := by
      rw [← Finset.add_sum_erase _ _ (Finset.mem_univ j0), add_sub_cancel_left]
      exact Finset.sum_nonneg fun j _ => a1 j
    have hle : ∑ j, (Function.update off j0 x j).1 ≤ S := by
      refine Finset.sum_le_sum fun j _ => ?_
      by_cases hj : j = j0
      · rw [hj, Function.update_self]; exact a4
      · rw [Function.update_of_ne hj]; exact a3 j
    rw [hsum] at hle ⊢
    set c := (1 + u) ^ (2 * m) with hc
    have hc1 : 1 ≤ c := one_le_pow₀ h1u
    have hcS : 0 ≤ (c - 1) * S := mul_nonneg (by linarith) hS0
    have b1 : (D - off j0).1 ≤ (1 + u) * (∑ j, (off j).1 - (off j0).1 + (c - 1) * S) := by
      rw [R.sub_eq]
      refine hu.le hu0 ?_ (by linarith)
      rw [R.val_neg]
      linarith
    have hX : 0 ≤ ∑ j, (off j).1 - (off j0).1 + (c - 1) * S := by linarith
    have hux : x.1 ≤ (1 + u) * x.1 := by nlinarith
    have b2 : (D - off j0 + x).1 ≤
        (1 + u) * ((1 + u) * (∑ j, (off j).1 - (off j0).1 + x.1 + (c - 1) * S)) := by
      refine hu.le hu0 ?_ (mul_nonneg (by linarith) (by linarith))
      linarith
    have hc' : (1 + u) ^ (2 * (m + 1)) = (1 + u) ^ 2 * c := by rw [hc]; ring
    rw [hc']
    refine b2.trans ?_
    have hsq : 1 ≤ (1 + u) ^ 2 := one_le_pow₀ h1u
    nlinarith [mul_le_mul_of_nonneg_left hle (by linarith : 0 ≤ (1 + u) ^ 2 - 1)]

/-- The running distance is at most the sum of the terms of a point, enlarged by the drift. -/
theorem Drift.le {term : Fin d → R.F} {m : Nat} {D : R.F} {off : Pt R.F d} (h : Drift u (∑ j, (term j).1) m D off)
    (a3 : ∀ j, off j ≤ term j) : D.1 ≤ (1 + u) ^ (2 * m) * ∑ j, (term j).1 := by
  have hoS : ∑ j, (off j).1 ≤ ∑ j, (term j).1 := Finset.sum_le_sum fun j _ => a3 j
  linarith [h.2]

/-- Every point is presented, except for points whose computed distance, enlarged by the accumulated
rounding error, exceeds the final `max()`. -/
theorem nearlyExact_of_guard {tag : SpaceTag R.F d β} {T : KdTree R.F d β} (hu : R.Error u) (hu0 : 0 ≤ u)
    (hu1 : u ≤ 1) (h : KdTree.make tag M N pts n o fuel = .ok T) (hR : Representable N pts n o)
    (hn : 0 < n) (q : Pt R.F d) (term : Fin d → Nat → R.F)
    (hg : Guard tag.splitDim (tag.pick M q) T.data.indices term T.data.root)
    (hterm : ∀ j i, 0 ≤ term j i) (hpick : ∀ data, 0 ≤ (tag.pick M q data).2)
    (hdist : ∀ i < n, M.dist q (pts i) = loopSum fun j => term j i) :
    NearlyExact T q (fun i => M.dist q (pts i)) n ((1 - u) ^ d) ((1 + u) ^ (2 * Spec.height T.data.root)) := by
  intro σ V Inv s hV hI
  obtain ⟨hperm, _, _, hel⟩ := KdTree.make_built h hR hn
  obtain ⟨h1, h2, h3, h4, h5, _⟩ := KdTree.make_ok h
  have hlt : ∀ i ∈ T.data.root.elems T.data.indices, i < n := by
    intro i hi
    rw [hel] at hi
    exact List.mem_range.1 (hperm.subset hi)
  have h1u : 1 ≤ 1 + u := by linarith
  set S : Nat → K := fun i => ∑ j, (term j i).1 with hS
  have hterm0 : ∀ j i, 0 ≤ (term j i).1 := hterm
  have hS0 : ∀ i, 0 ≤ S i := fun i => Finset.sum_nonneg fun j _ => hterm0 j i
  have hpow : ∀ m, 1 ≤ (1 + u) ^ (2 * m) := fun m => one_le_pow₀ h1u
  obtain ⟨vis, skip, hp, he, hk⟩ := searchNearest_steps T.tag.splitDim (T.tag.pick T.metric q) V
    (fun i => T.metric.dist q (T.pts i)) T.data.indices term
    (fun m D off i => Drift u (S i) m D off) (· < n) (fun m D off i h => h.mono hu0 (hS0 i))
    (fun m D off i data _ h a3 a4 => h.step hu hu0 (fun j => hterm j i) a3 (by rw [h1, h2]; exact hpick data) a4)
    Inv (by rw [h2, h4]; exact hV) T.data.root 0 0 (fun _ => 0, s) hlt (by rw [h1, h2]; exact hg)
    (by
      intro i _
      refine ⟨fun j => le_rfl, ?_⟩
      simp [R.val_zero])
    (fun i _ j => hterm j i) hI
  refine ⟨vis, skip, ?_, ?_, ?_⟩
  · rw [hel] at hp
    exact hp.trans hperm
  · unfold KdTree.searchNearest searchNearestRoot
    rw [he, h2, h4]
  · intro i hi
    obtain ⟨D, off, hdr, a3, a4⟩ := hk i hi
    have hlt' : ∀ i ∈ skip, i < n := fun i hi =>
      hlt i (hp.subset (List.mem_append_right _ hi))
    unfold KdTree.searchNearest searchNearestRoot
    rw [he]
    have hd : (1 - u) ^ d * S i ≤ (M.dist q (pts i)).1 := by
      rw [hdist i (hlt' i hi)]
      exact loopSum_ge hu hu0 hu1 _ fun j => hterm j i
    have hD := hdr.le a3
    rw [zero_add] at hD
    have hmax : (V.max (visitAll V (fun i => T.metric.dist q (T.pts i)) vis s)).1 ≤
        (1 + u) ^ (2 * Spec.height T.data.root) * S i := by
      have : (V.max (visitAll V (fun i => T.metric.dist q (T.pts i)) vis s)).1 ≤ D.1 := le_of_lt a4
      exact this.trans hD
    have hpu : 0 ≤ (1 - u) ^ d := pow_nonneg (by linarith) _
    calc (1 - u) ^ d * (V.max (visitAll V (fun i => T.metric.dist q (T.pts i)) vis s)).1
        ≤ (1 - u) ^ d * ((1 + u) ^ (2 * Spec.height T.data.root) * S i) :=
          mul_le_mul_of_nonneg_left hmax hpu
      _ = (1 + u) ^ (2 * Spec.height T.data.root) * ((1 - u) ^ d * S i) := by ring
      _ ≤ _ := mul_le_mul_of_nonneg_left hd (le_trans zero_le_one (hpow _))

/-- Euclidean trees. -/
theorem nearlyExact_axis {T : KdTree R.F d (Branch1 R.F d)} (hu : R.Error u) (hu0 : 0 ≤ u) (hu1 : u ≤ 1)
    (hM : AxisMetric M) (h : KdTree.make (euclideanTag R.F d) M N pts n o fuel = .ok T)
    (hR : Representable N pts n o) (hn : 0 < n) (q : Pt R.F d) :
    NearlyExact T q (fun i => M.dist q (pts i)) n ((1 - u) ^ d) ((1 + u) ^ (2 * Spec.height T.data.root)) := by
  obtain ⟨_, _, ⟨box, hB⟩, _⟩ := KdTree.make_built h hR hn
  have hg := guard_axis R.laws hM q hB [] [] rfl
  simp only [List.nil_append, List.append_nil] at hg
  refine nearlyExact_of_guard hu hu0 hu1 h hR hn q (fun j i => M.one (q j - pts i j)) hg
    (fun j i => hM.nonneg _) (fun data => ?_) (fun i _ => hM.dist_eq _ _)
  simp only [euclideanTag, pickEuclidean]
  split_ifs <;> exact hM.nonneg _

end Error

end Pico
