import Verif.Model.BoxMem

/-!
# Boxes in memory: loops, and the memory after `fit`
-/

namespace Pico

theorem memGet_ok {τ : Type} {m : List τ} {p : Nat} {x : τ} (h : m[p]? = some x) : memGet m p = .ok x := by
  unfold memGet; rw [h]

theorem memSet_ok {τ : Type} {m : List τ} {p : Nat} {y : τ} (h : m[p]? = some y) (x : τ) :
    memSet m p x = .ok (m.set p x) := by
  unfold memSet
  rw [if_pos]
  by_contra hc
  rw [List.getElem?_eq_none (Nat.le_of_not_lt hc)] at h
  cases h

theorem set_self {τ : Type} {m : List τ} {p : Nat} {y : τ} (h : m[p]? = some y) (x : τ) :
    (m.set p x)[p]? = some x := by
  have : p < m.length := by
    by_contra hc
    rw [List.getElem?_eq_none (Nat.le_of_not_lt hc)] at h
    cases h
  rw [List.getElem?_set_self this]

theorem set_ne {τ : Type} {m : List τ} {p q : Nat} (h : q ≠ p) (x : τ) : (m.set p x)[q]? = m[q]? :=
  List.getElem?_set_ne (Ne.symm h)

/-- A loop keeps what each of its iterations keeps. -/
theorem forUp_inv {σ : Type} {f : Nat → σ → Outcome σ} (P : Nat → σ → Prop) (n : Nat)
    (h : ∀ i < n, ∀ s, P i s → ∃ s', f i s = .ok s' ∧ P (i + 1) s') :
    ∀ k i, i + k = n → ∀ s, P i s → ∃ s', forUp f k i s = .ok s' ∧ P n s'
  | 0, i, e, s, hs => ⟨s, rfl, by rw [← e]; exact hs⟩
  | k + 1, i, e, s, hs => by
    obtain ⟨s1, e1, h1⟩ := h i (by omega) s hs
    obtain ⟨s2, e2, h2⟩ := forUp_inv P n h k (i + 1) (by omega) s1 h1
    refine ⟨s2, ?_, h2⟩
    rw [forUp, e1]
    exact e2

theorem allUp_eq {f : Nat → Outcome Bool} {n : Nat} (g : Fin n → Bool) (h : ∀ i : Fin n, f i = .ok (g i)) :
    allUp f n 0 = .ok ((List.finRange n).all g) := by
  have key : ∀ k i (e : i + k = n), allUp f k i = .ok ((List.finRange k).all fun j => g ⟨i + j, by omega⟩) := by
    intro k
    induction k with
    | zero => intro i _; rfl
    | succ k ih =>
      intro i e
      rw [allUp, h ⟨i, by omega⟩]
      show (if g ⟨i, _⟩ = true then _ else _) = _
      rw [List.finRange_succ, List.all_cons]
      by_cases hc : g ⟨i, by omega⟩ = true
      · rw [if_pos hc, ih (i + 1) (by omega)]
        simp only [List.all_map, Function.comp_def, Fin.val_succ, Fin.val_zero, Nat.add_zero, hc, Bool.true_and]
        congr 2
        funext j
        congr 2
        omega
      · rw [if_neg hc]
        simp only [Fin.val_zero, Nat.add_zero, Bool.eq_false_iff.2 hc, Bool.false_and]
  rw [key n 0 (by omega)]
  simp

section
variable {α : Type} [LT α] [DecidableLT α]

/-- The memory while a box is fitted: the first `k` coordinates are done. -/
structure Fitted (b : BoxView) (m0 : List α) (lo hi v w : Nat → α) (k : Nat) (m : List α) : Prop where
  length : m.length = m0.length
  min : ∀ i < b.size, m[b.min + i]? = some (if i < k then (if v i < lo i then v i else lo i) else lo i)
  max : ∀ i < b.size, m[b.max + i]? = some (if i < k then (if w i > hi i then w i else hi i) else hi i)
  rest : ∀ p, (∀ i < k, p ≠ b.min + i ∧ p ≠ b.max + i) → m[p]? = m0[p]?

/-- One iteration, for ends of the box that do not overlap. -/
theorem Fitted.step {b : BoxView} {m0 : List α} {lo hi v w : Nat → α} {k : Nat} {m : List α}
    (hd : b.min + b.size ≤ b.max ∨ b.max + b.size ≤ b.min) (hk : k < b.size) (h : Fitted b m0 lo hi v w k m)
    {x y : Nat} (hx : m[x + k]? = some (v k))
    (hy : ∀ m' : List α, (∀ p, p ≠ b.min + k → m'[p]? = m[p]?) →
      (m'[b.min + k]? = some (v k) ∨ m'[b.min + k]? = m[b.min + k]?) → m'[y + k]? = some (w k)) :
    ∃ m', (((memGet m (x + k)).bind fun v => (memGet m (b.min + k)).bind fun lo =>
        if v < lo then memSet m (b.min + k) v else .ok m).bind fun m =>
      (memGet m (y + k)).bind fun v => (memGet m (b.max + k)).bind fun hi =>
        if v > hi then memSet m (b.max + k) v else .ok m) = .ok m' ∧ Fitted b m0 lo hi v w (k + 1) m' := by
  have hlo : m[b.min + k]? = some (lo k) := by rw [h.min k hk, if_neg (Nat.lt_irrefl k)]
  have hhi : m[b.max + k]? = some (hi k) := by rw [h.max k hk, if_neg (Nat.lt_irrefl k)]
  -- the memory after the first statement
  obtain ⟨m1, e1, l1, s1, o1⟩ : ∃ m1, ((memGet m (x + k)).bind fun v => (memGet m (b.min + k)).bind fun lo =>
      if v < lo then memSet m (b.min + k) v else .ok m) = .ok m1 ∧ m1.length = m.length ∧
      m1[b.min + k]? = some (if v k < lo k then v k else lo k) ∧ ∀ p, p ≠ b.min + k → m1[p]? = m[p]? := by
    rw [memGet_ok hx, memGet_ok hlo]
    show ∃ m1, (if v k < lo k then memSet m (b.min + k) (v k) else .ok m) = _ ∧ _
    by_cases hc : v k < lo k
    · simp only [if_pos hc]
      exact ⟨_, memSet_ok hlo _, List.length_set, set_self hlo _, fun p hp => set_ne hp _⟩
    · simp only [if_neg hc]
      exact ⟨m, rfl, rfl, hlo, fun _ _ => rfl⟩
  have hy1 : m1[y + k]? = some (w k) := by
    refine hy m1 o1 ?_
    rw [s1, hlo]
    by_cases hc : v k < lo k
    · left; rw [if_pos hc]
    · right; rw [if_neg hc]
  have hh1 : m1[b.max + k]? = some (hi k) := by rw [o1 _ (by omega), hhi]
  obtain ⟨m2, e2, l2, s2, o2⟩ : ∃ m2, ((memGet m1 (y + k)).bind fun v => (memGet m1 (b.max + k)).bind fun hi =>
      if v > hi then memSet m1 (b.max + k) v else .ok m1) = .ok m2 ∧ m2.length = m1.length ∧
      m2[b.max + k]? = some (if w k > hi k then w k else hi k) ∧ ∀ p, p ≠ b.max + k → m2[p]? = m1[p]? := by
    rw [memGet_ok hy1, memGet_ok hh1]
    show ∃ m2, (if w k > hi k then memSet m1 (b.max + k) (w k) else .ok m1) = _ ∧ _
    by_cases hc : w k > hi k
    · simp only [if_pos hc]
      exact ⟨_, memSet_ok hh1 _, List.length_set, set_self hh1 _, fun p hp => set_ne hp _⟩
    · simp only [if_neg hc]
      exact ⟨m1, rfl, rfl, hh1, fun _ _ => rfl⟩
  refine ⟨m2, by rw [e1]; exact e2, l2.trans (l1.trans h.length), fun i hi' => ?_, fun i hi' => ?_, fun p hp => ?_⟩
  · rw [o2 _ (by omega)]
    by_cases hik : i = k
    · rw [hik, s1, if_pos (Nat.lt_succ_self k)]
    · rw [o1 _ (by omega), h.min i hi']
      simp only [show (i < k + 1 ↔ i < k) by omega]
  · by_cases hik : i = k
    · rw [hik, s2, if_pos (Nat.lt_succ_self k)]
    · rw [o2 _ (by omega), o1 _ (by omega), h.max i hi']
      simp only [show (i < k + 1 ↔ i < k) by omega]
  · rw [o2 _ (hp k (Nat.lt_succ_self k)).2, o1 _ (hp k (Nat.lt_succ_self k)).1]
    exact h.rest p fun i hi' => hp i (Nat.lt_succ_of_lt hi')

end

end Pico
