import Verif.Model.Dispatch
import Mathlib.Data.List.Nodup
import Mathlib.Tactic.IntervalCases

/-!
# Lemmas about the dispatch of calls from Python
-/

namespace Pico.Bind

variable {A D F ρ : Type}

theorem find_perm {kw kw' : List (Name × PyVal A D F)} (h : kw.Perm kw') (hn : (kw.map Prod.fst).Nodup) (n : Name) :
    (kw.find? fun x => decide (x.1 = n)) = kw'.find? fun x => decide (x.1 = n) := by
  induction h with
  | nil => rfl
  | cons x h ih =>
    rw [List.find?_cons, List.find?_cons]
    rw [ih (List.nodup_cons.1 hn).2]
  | swap x y l =>
    simp only [List.find?_cons]
    by_cases hx : x.1 = n <;> by_cases hy : y.1 = n
    · simp only [List.map_cons, List.nodup_cons, List.mem_cons, not_or] at hn
      exact absurd (hy.trans hx.symm) hn.1.1
    all_goals simp [hx, hy]
  | trans h1 h2 ih1 ih2 =>
    rw [ih1 hn, ih2 ((h1.map Prod.fst).nodup_iff.1 hn)]

/-- The order of the keywords does not matter. -/
theorem collect_perm (ps : List (Param A D F)) (pos : List (PyVal A D F)) {kw kw' : List (Name × PyVal A D F)}
    (h : kw.Perm kw') (hn : (kw.map Prod.fst).Nodup) : collect ps pos kw = collect ps pos kw' := by
  induction ps generalizing pos kw kw' with
  | nil =>
    cases pos with
    | nil => simp only [collect, h.isEmpty_eq]
    | cons v pos => rfl
  | cons p ps ih =>
    cases pos with
    | cons v pos =>
      have : (kw.any fun x => decide (x.1 = p.name)) = kw'.any fun x => decide (x.1 = p.name) := by
        rw [Bool.eq_iff_iff, List.any_eq_true, List.any_eq_true]
        exact ⟨fun ⟨x, hx, e⟩ => ⟨x, h.subset hx, e⟩, fun ⟨x, hx, e⟩ => ⟨x, h.symm.subset hx, e⟩⟩
      simp only [collect, this, ih pos h hn]
    | nil =>
      simp only [collect, find_perm h hn p.name]
      have := ih [] (h.filter fun y => decide (y.1 ≠ p.name)) (hn.sublist (List.filter_sublist.map _))
      rw [this, ih [] h hn]

theorem attempt_perm (o : Overload A D F ρ) (pass : Bool) (pos : List (PyVal A D F))
    {kw kw' : List (Name × PyVal A D F)} (h : kw.Perm kw') (hn : (kw.map Prod.fst).Nodup) :
    o.attempt pass pos kw = o.attempt pass pos kw' := by
  unfold Overload.attempt
  rw [collect_perm _ _ h hn]

theorem resolve_perm (os : List (Overload A D F ρ)) (pos : List (PyVal A D F)) {kw kw' : List (Name × PyVal A D F)}
    (h : kw.Perm kw') (hn : (kw.map Prod.fst).Nodup) : resolve os pos kw = resolve os pos kw' := by
  unfold resolve
  simp only [attempt_perm _ _ pos h hn]

/-- The value given for a parameter: by position or by name. -/
def given (pos : List (PyVal A D F)) (kw : List (Name × PyVal A D F)) (i : Nat) (n : Name) : Option (PyVal A D F) :=
  match pos[i]? with
  | some v => some v
  | none => (kw.find? fun x => decide (x.1 = n)).map Prod.snd

/-- What a successful `collect` says. -/
theorem collect_some {ps : List (Param A D F)} {pos : List (PyVal A D F)} {kw : List (Name × PyVal A D F)}
    {vs : List (PyVal A D F)} (hp : (ps.map Param.name).Nodup) (h : collect ps pos kw = some vs) :
    vs.length = ps.length ∧ pos.length ≤ ps.length ∧
    (∀ i (p : Param A D F) v, ps[i]? = some p → vs[i]? = some v →
      given pos kw i p.name = some v ∨ (given pos kw i p.name = none ∧ p.default = some v)) ∧
    ∀ x ∈ kw, x.1 ∈ (ps.drop pos.length).map Param.name := by
  induction ps generalizing pos kw vs with
  | nil =>
    cases pos with
    | nil =>
      simp only [collect] at h
      split_ifs at h with hk
      cases h
      refine ⟨rfl, le_rfl, by simp, ?_⟩
      rw [List.isEmpty_iff.1 hk]
      simp
    | cons v pos => simp [collect] at h
  | cons p ps ih =>
    rw [List.map_cons, List.nodup_cons] at hp
    cases pos with
    | cons v pos =>
      simp only [collect] at h
      split_ifs at h with h1 h2
      obtain ⟨ws, hw, rfl⟩ := Option.map_eq_some_iff.1 h
      obtain ⟨g1, g2, g3, g4⟩ := ih hp.2 hw
      refine ⟨by simp [g1], by simpa using g2, ?_, by simpa using g4⟩
      intro i p' v' hi hv
      cases i with
      | zero =>
        simp only [List.getElem?_cons_zero, Option.some.injEq] at hi hv
        subst hv
        exact .inl rfl
      | succ i =>
        simp only [List.getElem?_cons_succ] at hi hv
        exact g3 i p' v' hi hv
    | nil =>
      simp only [collect] at h
      split at h
      · rename_i x hx
        split_ifs at h with h2
        obtain ⟨ws, hw, rfl⟩ := Option.map_eq_some_iff.1 h
        obtain ⟨g1, g2, g3, g4⟩ := ih hp.2 hw
        refine ⟨by simp [g1], by simp, ?_, ?_⟩
        · intro i p' v' hi hv
          cases i with
          | zero =>
            simp only [List.getElem?_cons_zero, Option.some.injEq] at hi hv
            subst hi hv
            exact .inl (by simp [given, hx])
          | succ i =>
            simp only [List.getElem?_cons_succ] at hi hv
            have hne : p'.name ≠ p.name := fun e => hp.1 (List.mem_map.2 ⟨p', List.mem_of_getElem? hi, e⟩)
            have hf : ((kw.filter fun y => decide (y.1 ≠ p.name)).find? fun x => decide (x.1 = p'.name)) =
                kw.find? fun x => decide (x.1 = p'.name) := by
              rw [List.find?_filter]
              congr 1
              funext y
              by_cases e : y.1 = p'.name
              · simp [e, hne]
              · simp [e]
            have := g3 i p' v' hi hv
            simp only [given, List.getElem?_nil] at this ⊢
            rwa [hf] at this
        · intro y hy
          simp only [List.length_nil, List.drop_zero, List.map_cons, List.mem_cons] at g4 ⊢
          by_cases e : y.1 = p.name
          · exact .inl e
          · exact .inr (g4 y (List.mem_filter.2 ⟨hy, by simpa using e⟩))
      · rename_i hx
        split at h
        · rename_i v hd
          obtain ⟨ws, hw, rfl⟩ := Option.map_eq_some_iff.1 h
          obtain ⟨g1, g2, g3, g4⟩ := ih hp.2 hw
          refine ⟨by simp [g1], by simp, ?_, ?_⟩
          · intro i p' v' hi hv
            cases i with
            | zero =>
              simp only [List.getElem?_cons_zero, Option.some.injEq] at hi hv
              subst hi hv
              exact .inr ⟨by simp [given, hx], hd⟩
            | succ i =>
              simp only [List.getElem?_cons_succ] at hi hv
              have := g3 i p' v' hi hv
              simpa only [given, List.getElem?_nil] using this
          · intro y hy
            simp only [List.length_nil, List.drop_zero, List.map_cons, List.mem_cons] at g4 ⊢
            exact .inr (g4 y hy)
        · simp at h

/-- A successful call: one of the overloads, with values that were given or are defaults, and that were loaded. -/
theorem resolve_some {os : List (Overload A D F ρ)} {pos : List (PyVal A D F)} {kw : List (Name × PyVal A D F)} {r : ρ}
    (h : resolve os pos kw = some r) :
    ∃ o ∈ os, ∃ pass vs as, collect o.params pos kw = some vs ∧ loadAll pass o.params vs = some as ∧
      o.call as = some r := by
  have key : ∀ pass, (os.findSome? fun o => o.attempt pass pos kw) = some r →
      ∃ o ∈ os, ∃ pass vs as, collect o.params pos kw = some vs ∧ loadAll pass o.params vs = some as ∧
        o.call as = some r := by
    intro pass h
    obtain ⟨o, ho, h⟩ := List.exists_of_findSome?_eq_some h
    unfold Overload.attempt at h
    split at h
    · rename_i vs hv
      split_ifs at h
      obtain ⟨as, h1, h2⟩ := Option.bind_eq_some_iff.1 h
      exact ⟨o, ho, pass, vs, as, hv, h1, h2⟩
    · simp at h
  unfold resolve at h
  split at h
  · rename_i r' hr
    cases h
    exact key false hr
  · exact key true h

end Pico.Bind
