import Verif.Model.Lifetime
import Mathlib.Data.List.Forall2

/-!
# C58, C59: lifetimes of points and views in Python programs
-/

namespace Pico.Props

open Pico Life

/-- Objects that exist have smaller numbers than new ones. -/
def Fresh (w : World) : Prop := ∀ o x, w.objs o = some x → o < w.next

/-- What a step does to the objects that already exist: references stay, the type and the raw pointers of
trees and views stay, a `DArray` stays a `DArray`. -/
structure Keeps (w w' : World) : Prop where
  le : w.next ≤ w'.next
  refs : ∀ o < w.next, w'.refs o = w.refs o
  array : ∀ o < w.next, w.objs o = some .array → w'.objs o = some .array
  tree : ∀ o < w.next, ∀ a, w.objs o = some (.tree a) → w'.objs o = some (.tree a)
  view : ∀ o < w.next, ∀ d b n, w.objs o = some (.view d b n) → w'.objs o = some (.view d b n)
  darray : ∀ o < w.next, ∀ c, w.objs o = some (.darray c) → ∃ c', w'.objs o = some (.darray c')
  iter : ∀ o < w.next, ∀ d i s, w.objs o = some (.iter d i s) → ∃ i', w'.objs o = some (.iter d i' s)

theorem Keeps.refl (w : World) : Keeps w w :=
  ⟨Nat.le_refl _, fun _ _ => rfl, fun _ _ h => h, fun _ _ _ h => h, fun _ _ _ _ _ h => h,
    fun _ _ c h => ⟨c, h⟩, fun _ _ _ i _ h => ⟨i, h⟩⟩

theorem Keeps.trans {w w' w'' : World} (h : Keeps w w') (h' : Keeps w' w'') : Keeps w w'' where
  le := Nat.le_trans h.le h'.le
  refs o ho := (h'.refs o (Nat.lt_of_lt_of_le ho h.le)).trans (h.refs o ho)
  array o ho e := h'.array o (Nat.lt_of_lt_of_le ho h.le) (h.array o ho e)
  tree o ho a e := h'.tree o (Nat.lt_of_lt_of_le ho h.le) a (h.tree o ho a e)
  view o ho d b n e := h'.view o (Nat.lt_of_lt_of_le ho h.le) d b n (h.view o ho d b n e)
  darray o ho c e := by
    obtain ⟨c', e'⟩ := h.darray o ho c e
    exact h'.darray o (Nat.lt_of_lt_of_le ho h.le) c' e'
  iter o ho d i s e := by
    obtain ⟨i', e'⟩ := h.iter o ho d i s e
    exact h'.iter o (Nat.lt_of_lt_of_le ho h.le) d i' s e'

/-- Case analysis of the statements. -/
inductive Steps (w : World) : Op → World → Prop
  | newArray : Steps w .newArray (w.create .array [])
  | makeTree {a} (ha : a ∈ w.vars) (ho : w.objs a = some .array) :
      Steps w (.makeTree a) (w.create (.tree a) [a])
  | loadTree {a} (ha : a ∈ w.vars) (ho : w.objs a = some .array) :
      Steps w (.loadTree a) (w.create (.tree a) [])
  | search {t sizes} (cells : List Cell) (m : Nat) :
      Steps w (.search t sizes) { w.create (.darray cells) [] with nextBlock := m }
  | searchInto {t d sizes cells} (hd : w.objs d = some (.darray cells)) :
      Steps w (.searchInto t d sizes) { w with
        objs := Function.update w.objs d (some (.darray (refillAll w.nextBlock cells sizes)))
        nextBlock := w.nextBlock + sizes.length }
  | getItem {d i cells c} (hd : w.objs d = some (.darray cells)) (hc : cells[i]? = some c) :
      Steps w (.getItem d i) (w.create (.view d c.block c.size) [d])
  | getSlice {d ps} (cells : List Cell) (m : Nat) :
      Steps w (.getSlice d ps) { w.create (.darray cells) [] with nextBlock := m }
  | makeIter {d cells} (hd : w.objs d = some (.darray cells)) :
      Steps w (.makeIter d) (w.create (.iter d 0 cells.length) [d])
  | nextItem {it d i stop cells c} (hi : w.objs it = some (.iter d i stop)) (hs : i ≠ stop)
      (hd : w.objs d = some (.darray cells)) (hc : cells[i]? = some c) :
      Steps w (.nextItem it) (({ w with objs := Function.update w.objs it (some (.iter d (i + 1) stop)) }).create
        (.view d c.block c.size) [])
  | del {o} : Steps w (.del o) { w with vars := w.vars.erase o }

theorem steps_of_step {w w' : World} {op : Op} (h : step w op = some w') : Steps w op w' := by
  cases op with
  | newArray => cases h; exact .newArray
  | makeTree a =>
    unfold step at h
    simp only at h
    split at h
    · rename_i hc; cases h; exact .makeTree hc.1 hc.2
    · cases h
  | loadTree a =>
    unfold step at h
    simp only at h
    split at h
    · rename_i hc; cases h; exact .loadTree hc.1 hc.2
    · cases h
  | search t sizes =>
    unfold step at h
    simp only at h
    split at h
    · split at h
      · cases h; exact .search _ _
      · cases h
    · cases h
  | searchInto t d sizes =>
    unfold step at h
    simp only at h
    split at h
    · split at h
      · rename_i hd; cases h; exact .searchInto hd
      · cases h
    · cases h
  | getItem d i =>
    unfold step at h
    simp only at h
    split at h
    · split at h
      · rename_i hd
        split at h
        · rename_i hc; cases h; exact .getItem hd hc
        · cases h
      · cases h
    · cases h
  | getSlice d ps =>
    unfold step at h
    simp only at h
    split at h
    · split at h
      · cases h; exact .getSlice _ _
      · cases h
    · cases h
  | makeIter d =>
    unfold step at h
    simp only at h
    split at h
    · split at h
      · rename_i hd; cases h; exact .makeIter hd
      · cases h
    · cases h
  | nextItem it =>
    unfold step at h
    simp only at h
    split at h
    · split at h
      · rename_i hi
        split at h
        · cases h
        · rename_i hs
          split at h
          · rename_i hd
            split at h
            · rename_i hc; cases h; exact .nextItem hi hs hd hc
            · cases h
          · cases h
      · cases h
    · cases h
  | del o => cases h; exact .del

theorem create_objs {w : World} {x : Obj} {r : List Nat} {o : Nat} {y : Obj}
    (h : (w.create x r).objs o = some y) : o = w.next ∧ y = x ∨ o ≠ w.next ∧ w.objs o = some y := by
  by_cases ho : o = w.next
  · subst ho
    simp only [World.create, Function.update_self] at h
    exact Or.inl ⟨rfl, (Option.some.inj h).symm⟩
  · simp only [World.create, Function.update_of_ne ho] at h
    exact Or.inr ⟨ho, h⟩

theorem create_refs_self {w : World} {x : Obj} {r : List Nat} : (w.create x r).refs w.next = r := by
  simp [World.create]

theorem create_refs_ne {w : World} {x : Obj} {r : List Nat} {o : Nat} (h : o ≠ w.next) :
    (w.create x r).refs o = w.refs o := by
  simp [World.create, Function.update_of_ne h]

theorem keeps_create (w : World) (x : Obj) (refs : List Nat) : Keeps w (w.create x refs) := by
  have h : ∀ o < w.next, (w.create x refs).objs o = w.objs o := fun o ho =>
    Function.update_of_ne (Nat.ne_of_lt ho) _ _
  refine ⟨Nat.le_succ _, fun o ho => Function.update_of_ne (Nat.ne_of_lt ho) _ _, ?_, ?_, ?_, ?_, ?_⟩
  · intro o ho e; rw [h o ho]; exact e
  · intro o ho a e; rw [h o ho]; exact e
  · intro o ho d b n e; rw [h o ho]; exact e
  · intro o ho c e; rw [h o ho]; exact ⟨c, e⟩
  · intro o ho d i s e; rw [h o ho]; exact ⟨i, e⟩

theorem keeps_block {w w' : World} (m : Nat) (h : Keeps w w') : Keeps w { w' with nextBlock := m } :=
  ⟨h.le, h.refs, h.array, h.tree, h.view, h.darray, h.iter⟩

theorem step_keeps {w w' : World} {op : Op} (h : Steps w op w') : Keeps w w' := by
  cases h with
  | newArray => exact keeps_create _ _ _
  | makeTree => exact keeps_create _ _ _
  | loadTree => exact keeps_create _ _ _
  | search => exact keeps_block _ (keeps_create _ _ _)
  | getItem => exact keeps_create _ _ _
  | getSlice => exact keeps_block _ (keeps_create _ _ _)
  | makeIter => exact keeps_create _ _ _
  | del => exact ⟨Nat.le_refl _, fun _ _ => rfl, fun _ _ h => h, fun _ _ _ h => h, fun _ _ _ _ _ h => h,
      fun _ _ c h => ⟨c, h⟩, fun _ _ _ i _ h => ⟨i, h⟩⟩
  | @searchInto t d sizes cells hd =>
    have hne : ∀ o x, w.objs o = some x → (∀ c, x ≠ .darray c) →
        Function.update w.objs d (some (.darray (refillAll w.nextBlock cells sizes))) o = some x := by
      intro o x hx hc
      have : o ≠ d := by
        intro e
        rw [e, hd] at hx
        exact hc _ (Option.some.inj hx).symm
      rw [Function.update_of_ne this]
      exact hx
    refine ⟨Nat.le_refl _, fun _ _ => rfl, ?_, ?_, ?_, ?_, ?_⟩
    · intro o _ e; exact hne o _ e (by simp)
    · intro o _ a e; exact hne o _ e (by simp)
    · intro o _ _ _ _ e; exact hne o _ e (by simp)
    · intro o _ c e
      by_cases ho : o = d
      · subst ho; exact ⟨_, Function.update_self _ _ _⟩
      · exact ⟨c, (Function.update_of_ne ho _ _).trans e⟩
    · intro o _ _ i _ e; exact ⟨i, hne o _ e (by simp)⟩
  | @nextItem it d i stop cells c hi hs hd hc =>
    refine Keeps.trans ?_ (keeps_create _ _ _)
    have hne : ∀ o x, w.objs o = some x → (∀ d i s, x ≠ .iter d i s) →
        Function.update w.objs it (some (.iter d (i + 1) stop)) o = some x := by
      intro o x hx hc
      have : o ≠ it := by
        intro e
        rw [e, hi] at hx
        exact hc _ _ _ (Option.some.inj hx).symm
      rw [Function.update_of_ne this]
      exact hx
    refine ⟨Nat.le_refl _, fun _ _ => rfl, ?_, ?_, ?_, ?_, ?_⟩
    · intro o _ e; exact hne o _ e (by simp)
    · intro o _ a e; exact hne o _ e (by simp)
    · intro o _ _ _ _ e; exact hne o _ e (by simp)
    · intro o _ c e; exact ⟨c, hne o _ e (by simp)⟩
    · intro o _ d' j s e
      by_cases ho : o = it
      · subst ho
        rw [hi] at e
        cases e
        exact ⟨i + 1, Function.update_self _ _ _⟩
      · exact ⟨j, (Function.update_of_ne ho _ _).trans e⟩

theorem exec_keeps : ∀ (ops : List Op) {w w' : World}, exec w ops = some w' → Keeps w w'
  | [], _, _, h => by cases h; exact Keeps.refl _
  | op :: ops, w, w', h => by
    unfold exec at h
    cases hs : step w op with
    | none => rw [hs] at h; cases h
    | some w1 =>
      rw [hs] at h
      exact (step_keeps (steps_of_step hs)).trans (exec_keeps ops h)

/-- What holds for the objects of every program. -/
structure Inv (w : World) : Prop where
  fresh : ∀ o x, w.objs o = some x → o < w.next
  view : ∀ v d b n, w.objs v = some (.view d b n) → ∃ cells, w.objs d = some (.darray cells)
  iter : ∀ v d i s, w.objs v = some (.iter d i s) → d ∈ w.refs v ∧ ∃ cells, w.objs d = some (.darray cells)

theorem Inv.empty : Inv World.empty := ⟨nofun, nofun, nofun⟩

theorem Inv.create {w : World} (h : Inv w) {x : Obj} {r : List Nat}
    (hv : ∀ d b n, x = .view d b n → ∃ cells, w.objs d = some (.darray cells))
    (hi : ∀ d i s, x = .iter d i s → d ∈ r ∧ ∃ cells, w.objs d = some (.darray cells)) :
    Inv (w.create x r) := by
  have up : ∀ d cells, w.objs d = some (.darray cells) →
      ∃ cells', (w.create x r).objs d = some (.darray cells') := fun d cells e =>
    (keeps_create w x r).darray d (h.fresh d _ e) cells e
  refine ⟨?_, ?_, ?_⟩
  · intro o y e
    rcases create_objs e with ⟨rfl, _⟩ | ⟨_, e⟩
    · exact Nat.lt_succ_self _
    · exact Nat.lt_succ_of_lt (h.fresh o y e)
  · intro v d b n e
    rcases create_objs e with ⟨_, e⟩ | ⟨_, e⟩
    · obtain ⟨cells, e⟩ := hv d b n e.symm
      exact up d cells e
    · obtain ⟨cells, e⟩ := h.view v d b n e
      exact up d cells e
  · intro v d i s e
    rcases create_objs e with ⟨rfl, e'⟩ | ⟨ho, e⟩
    · obtain ⟨hr, cells, e⟩ := hi d i s e'.symm
      exact ⟨by rw [create_refs_self]; exact hr, up d cells e⟩
    · obtain ⟨hr, cells, e⟩ := h.iter v d i s e
      exact ⟨by rw [create_refs_ne ho]; exact hr, up d cells e⟩

theorem Inv.block {w : World} (h : Inv w) (m : Nat) : Inv { w with nextBlock := m } :=
  ⟨h.fresh, h.view, h.iter⟩

/-- Replacing a `DArray` by a `DArray`, or an iterator by an iterator of the same `DArray`. -/
theorem Inv.update {w : World} (h : Inv w) {p : Nat} {x : Obj}
    (hx : (∃ c c', w.objs p = some (.darray c) ∧ x = .darray c') ∨
      ∃ d i j s s', w.objs p = some (.iter d i s) ∧ x = .iter d j s') :
    Inv { w with objs := Function.update w.objs p (some x) } := by
  have up : ∀ d cells, w.objs d = some (.darray cells) →
      ∃ cells', Function.update w.objs p (some x) d = some (.darray cells') := by
    intro d cells e
    by_cases hd : d = p
    · subst hd
      rcases hx with ⟨c, c', e1, e2⟩ | ⟨_, _, _, _, _, e1, _⟩
      · exact ⟨c', by rw [Function.update_self, e2]⟩
      · rw [e] at e1; cases e1
    · exact ⟨cells, by rw [Function.update_of_ne hd]; exact e⟩
  refine ⟨?_, ?_, ?_⟩
  · intro o y e
    by_cases ho : o = p
    · subst ho
      rcases hx with ⟨c, c', e1, e2⟩ | ⟨_, _, _, _, _, e1, _⟩ <;> exact h.fresh _ _ e1
    · rw [show ({ w with objs := Function.update w.objs p (some x) } : World).objs o = w.objs o from
        Function.update_of_ne ho _ _] at e
      exact h.fresh o y e
  · intro v d b n e
    by_cases ho : v = p
    · subst ho
      simp only [Function.update_self] at e
      rcases hx with ⟨c, c', e1, e2⟩ | ⟨_, _, _, _, _, e1, e2⟩ <;> (rw [e2] at e; cases e)
    · simp only [Function.update_of_ne ho] at e
      obtain ⟨cells, e⟩ := h.view v d b n e
      exact up d cells e
  · intro v d i s e
    by_cases ho : v = p
    · subst ho
      simp only [Function.update_self] at e
      rcases hx with ⟨c, c', e1, e2⟩ | ⟨_, _, _, _, _, e1, e2⟩
      · rw [e2] at e; cases e
      · rw [e2] at e
        cases e
        obtain ⟨hr, cells, e⟩ := h.iter v _ _ _ e1
        exact ⟨hr, up _ cells e⟩
    · simp only [Function.update_of_ne ho] at e
      obtain ⟨hr, cells, e⟩ := h.iter v d i s e
      exact ⟨hr, up d cells e⟩

theorem step_inv {w w' : World} {op : Op} (hI : Inv w) (h : Steps w op w') : Inv w' := by
  cases h with
  | newArray => exact hI.create (by exact nofun) (by exact nofun)
  | makeTree => exact hI.create (by exact nofun) (by exact nofun)
  | loadTree => exact hI.create (by exact nofun) (by exact nofun)
  | search => exact (hI.create (by exact nofun) (by exact nofun)).block _
  | getItem hd hc => exact hI.create (fun d b n e => by cases e; exact ⟨_, hd⟩) nofun
  | getSlice => exact (hI.create (by exact nofun) (by exact nofun)).block _
  | makeIter hd => exact hI.create nofun (fun d i s e => by cases e; exact ⟨by simp, _, hd⟩)
  | del => exact ⟨hI.fresh, hI.view, hI.iter⟩
  | searchInto hd => exact (hI.update (Or.inl ⟨_, _, hd, rfl⟩)).block _
  | @nextItem it d i stop cells c hi hs hd hc =>
    have h1 : Inv { w with objs := Function.update w.objs it (some (.iter d (i + 1) stop)) } :=
      hI.update (Or.inr ⟨_, _, _, _, _, hi, rfl⟩)
    refine h1.create (fun d' b n e => ?_) nofun
    cases e
    have hne : d ≠ it := by intro e; rw [e, hi] at hd; cases hd
    exact ⟨cells, (Function.update_of_ne hne _ _).trans hd⟩

/-- Induction over the statements of a program. -/
theorem exec_induction {P : World → Prop} {Q : World → Op → Prop}
    (hstep : ∀ w w' op, P w → Q w op → Steps w op w' → P w') :
    ∀ (ops : List Op) {w w' : World}, P w →
      (∀ pre op post, ops = pre ++ op :: post → ∀ w1, exec w pre = some w1 → Q w1 op) →
      exec w ops = some w' → P w'
  | [], _, _, hP, _, h => by cases h; exact hP
  | op :: ops, w, w', hP, hQ, h => by
    unfold exec at h
    cases hs : step w op with
    | none => rw [hs] at h; cases h
    | some w1 =>
      rw [hs] at h
      refine exec_induction hstep ops (hstep w w1 op hP (hQ [] op ops rfl w rfl) (steps_of_step hs)) ?_ h
      intro pre op' post e w2 h2
      refine hQ (op :: pre) op' post (by rw [e]; rfl) w2 ?_
      unfold exec
      rw [hs]
      exact h2

theorem exec_inv {ops : List Op} {w : World} (h : exec .empty ops = some w) : Inv w :=
  exec_induction (Q := fun _ _ => True) (fun _ _ _ hP _ hs => step_inv hP hs) ops Inv.empty
    (fun _ _ _ _ _ _ => trivial) h

/-! ## C58 -/

/-- C58 (constructor): a tree made by the constructor keeps its points, whatever the program did before and
does later, for as long as the tree itself can be used. -/
theorem c58_constructor {pre post : List Op} {w0 w1 w2 : World} {a : Nat} (h0 : exec .empty pre = some w0)
    (h1 : step w0 (.makeTree a) = some w1) (h2 : exec w1 post = some w2) :
    w2.objs w0.next = some (.tree a) ∧ w2.objs a = some .array ∧ (Alive w2 w0.next → Alive w2 a) := by
  have hk := exec_keeps post h2
  have hI := exec_inv h0
  cases steps_of_step h1 with
  | makeTree ha ho =>
    have hn : w0.next < (w0.create (.tree a) [a]).next := Nat.lt_succ_self _
    have ht : (w0.create (.tree a) [a]).objs w0.next = some (.tree a) := Function.update_self _ _ _
    refine ⟨hk.tree _ hn a ht, ?_, fun hal => .ref hal ?_⟩
    · have hlt := hI.fresh a _ ho
      exact hk.array _ (Nat.lt_trans hlt hn) ((keeps_create _ _ _).array _ hlt ho)
    · rw [hk.refs _ hn, create_refs_self]
      simp

/-- C58 (partial): in a program that never calls `load_kd_tree`, every tree that can be used has its points.
Missing: programs that load trees, see `c58_false`. -/
theorem c58_partial {ops : List Op} {w : World} (h : exec .empty ops = some w)
    (hload : ∀ a, Op.loadTree a ∉ ops) : ∀ t, Alive w t → TreeOk w t := by
  have key : ∀ t a, w.objs t = some (.tree a) → a ∈ w.refs t := by
    refine exec_induction (P := fun w => ∀ t a, w.objs t = some (.tree a) → a ∈ w.refs t)
      (Q := fun _ op => ∀ a, op ≠ .loadTree a) ?_ ops (w := .empty) nofun ?_ h
    · intro w w' op hP hQ hs t a e
      have hc : ∀ {x : Obj} {r : List Nat} (w : World), (∀ t a, w.objs t = some (.tree a) → a ∈ w.refs t) →
          (∀ a, x = .tree a → a ∈ r) → (w.create x r).objs t = some (.tree a) → a ∈ (w.create x r).refs t := by
        intro x r w hP hx e
        rcases create_objs e with ⟨rfl, e'⟩ | ⟨ho, e⟩
        · rw [create_refs_self]; exact hx a e'.symm
        · rw [create_refs_ne ho]; exact hP t a e
      cases hs with
      | newArray => exact hc w hP (by exact nofun) e
      | makeTree => exact hc w hP (fun a e => by cases e; simp) e
      | loadTree => exact absurd rfl (hQ _)
      | search => exact hc w hP (by exact nofun) e
      | getItem => exact hc w hP (by exact nofun) e
      | getSlice => exact hc w hP (by exact nofun) e
      | makeIter => exact hc w hP (by exact nofun) e
      | del => exact hP t a e
      | searchInto hd =>
        refine hP t a ?_
        simp only at e
        rw [← e]
        refine (Function.update_of_ne ?_ _ _).symm
        intro ht
        rw [ht, Function.update_self] at e
        cases e
      | nextItem hi hs hd hc' =>
        refine hc _ ?_ nofun e
        intro t a e
        refine hP t a ?_
        simp only at e
        rw [← e]
        refine (Function.update_of_ne ?_ _ _).symm
        intro ht
        rw [ht, Function.update_self] at e
        cases e
    · intro pre op post e _ _ a ha
      exact hload a (by rw [e, ha]; simp)
  intro t hal a e
  exact .ref hal (key t a e)

/-- Only variables are alive if no object holds references. -/
theorem alive_no_refs {w : World} (h : ∀ o, w.refs o = []) {o : Nat} (ho : Alive w o) : o ∈ w.vars := by
  cases ho with
  | var h => exact h
  | ref _ hr => rw [h] at hr; cases hr

/-- The program `a = ...; t = load_kd_tree(a, f); del a`. -/
def exLoad : List Op := [.newArray, .loadTree 0, .del 0]

/-- C58 fails for the code: the points of a loaded tree are freed with the last variable. -/
theorem c58_false : ∃ w, exec .empty exLoad = some w ∧ Alive w 1 ∧ ¬ TreeOk w 1 := by
  refine ⟨_, rfl, .var (by decide), fun h => ?_⟩
  have h0 := h 0 rfl
  have hr : ∀ o, Function.update (Function.update (fun _ : Nat => ([] : List Nat)) 0 []) 1 [] o = [] := by
    intro o
    simp [Function.update_apply]
  exact absurd (alive_no_refs hr h0) (by decide)

/-- The same program with the constructor. -/
example : ∃ w, exec .empty [.newArray, .makeTree 0, .del 0] = some w ∧ Alive w 1 ∧ 0 ∉ w.vars :=
  ⟨_, rfl, .var (by decide), by decide⟩

/-! ## C59 -/

theorem AllFit.split : ∀ {pre post : List Op} {op : Op} {w w1 : World}, AllFit w (pre ++ op :: post) →
    exec w pre = some w1 → Fits w1 op
  | [], _, _, _, _, h, e => by cases e; exact h.1
  | p :: pre, post, op, w, w1, h, e => by
    unfold exec at e
    cases hs : step w p with
    | none => rw [hs] at e; cases e
    | some w2 =>
      rw [hs] at e
      exact AllFit.split (h.2 w2 hs) e

theorem refillAll_length : ∀ (b : Nat) (cells : List Cell) (sizes : List Nat),
    (refillAll b cells sizes).length = sizes.length
  | _, [], [] => rfl
  | _, _ :: _, [] => rfl
  | b, [], _ :: ss => congrArg Nat.succ (refillAll_length (b + 1) [] ss)
  | b, _ :: cs, _ :: ss => congrArg Nat.succ (refillAll_length (b + 1) cs ss)

theorem refill_le (b : Nat) (c : Cell) (n : Nat) : (refill b c n).size ≤ (refill b c n).cap := by
  unfold refill
  split
  · assumption
  · exact Nat.le_refl _

theorem refillAll_le : ∀ (b : Nat) (cells : List Cell) (sizes : List Nat),
    ∀ c ∈ refillAll b cells sizes, c.size ≤ c.cap
  | _, [], [], _, h => by cases h
  | _, _ :: _, [], _, h => by cases h
  | b, [], s :: ss, c, h => by
    rcases List.mem_cons.1 h with rfl | h
    · exact refill_le _ _ _
    · exact refillAll_le _ _ _ c h
  | b, c0 :: cs, s :: ss, c, h => by
    rcases List.mem_cons.1 h with rfl | h
    · exact refill_le _ _ _
    · exact refillAll_le _ _ _ c h

/-- If the results fit, every block stays where it is. -/
theorem refillAll_keeps : ∀ (b : Nat) (cells : List Cell) (sizes : List Nat),
    List.Forall₂ (fun c s => s ≤ c.cap) cells (sizes.take cells.length) →
    ∀ c ∈ cells, ∃ c' ∈ refillAll b cells sizes, c'.block = c.block ∧ c'.cap = c.cap
  | _, [], _, _, _, h => by cases h
  | _, _ :: _, [], hf, _, _ => by cases hf
  | b, c0 :: cs, s :: ss, hf, c, h => by
    simp only [List.length_cons, List.take_succ_cons] at hf
    cases hf with
    | cons h1 h2 =>
      rcases List.mem_cons.1 h with rfl | h
      · exact ⟨refill b c s, List.mem_cons_self, by simp [refill, h1], by simp [refill, h1]⟩
      · obtain ⟨c', hm, e⟩ := refillAll_keeps (b + 1) cs ss h2 c h
        exact ⟨c', List.mem_cons_of_mem _ hm, e⟩

/-- What holds in addition if all results fit. -/
structure FitInv (w : World) : Prop where
  cell : ∀ o cells, w.objs o = some (.darray cells) → ∀ c ∈ cells, c.size ≤ c.cap
  view : ∀ v d b n, w.objs v = some (.view d b n) →
    ∃ cells, w.objs d = some (.darray cells) ∧ ∃ c ∈ cells, c.block = b ∧ n ≤ c.cap
  iter : ∀ v d i s, w.objs v = some (.iter d i s) →
    ∃ cells, w.objs d = some (.darray cells) ∧ i ≤ s ∧ s ≤ cells.length

theorem FitInv.create {w : World} (hI : Inv w) (h : FitInv w) {x : Obj} {r : List Nat}
    (hc : ∀ cells, x = .darray cells → ∀ c ∈ cells, c.size ≤ c.cap)
    (hv : ∀ d b n, x = .view d b n →
      ∃ cells, w.objs d = some (.darray cells) ∧ ∃ c ∈ cells, c.block = b ∧ n ≤ c.cap)
    (hi : ∀ d i s, x = .iter d i s →
      ∃ cells, w.objs d = some (.darray cells) ∧ i ≤ s ∧ s ≤ cells.length) :
    FitInv (w.create x r) := by
  have up : ∀ d cells, w.objs d = some (.darray cells) →
      (w.create x r).objs d = some (.darray cells) := fun d cells e =>
    (Function.update_of_ne (Nat.ne_of_lt (hI.fresh d _ e)) _ _).trans e
  refine ⟨?_, ?_, ?_⟩
  · intro o cells e
    rcases create_objs e with ⟨_, e'⟩ | ⟨_, e⟩
    · exact hc cells e'.symm
    · exact h.cell o cells e
  · intro v d b n e
    rcases create_objs e with ⟨_, e'⟩ | ⟨_, e⟩
    · obtain ⟨cells, e, h⟩ := hv d b n e'.symm
      exact ⟨cells, up d cells e, h⟩
    · obtain ⟨cells, e, h⟩ := h.view v d b n e
      exact ⟨cells, up d cells e, h⟩
  · intro v d i s e
    rcases create_objs e with ⟨_, e'⟩ | ⟨_, e⟩
    · obtain ⟨cells, e, h⟩ := hi d i s e'.symm
      exact ⟨cells, up d cells e, h⟩
    · obtain ⟨cells, e, h⟩ := h.iter v d i s e
      exact ⟨cells, up d cells e, h⟩

theorem FitInv.block {w : World} (h : FitInv w) (m : Nat) : FitInv { w with nextBlock := m } :=
  ⟨h.cell, h.view, h.iter⟩

theorem fresh_block {w : World} {x : List Cell} {m : Nat} :
    ({ w.create (.darray x) [] with nextBlock := m } : World) =
      ({ w with nextBlock := m } : World).create (.darray x) [] := rfl

/-- The cells of a new `DArray` are filled by searches as well. -/
theorem step_fit {w w' : World} {op : Op} (hI : Inv w) (h : FitInv w) (hf : Fits w op)
    (hs : step w op = some w') : FitInv w' := by
  have hS := steps_of_step hs
  cases hS with
  | newArray => exact h.create hI (by exact nofun) (by exact nofun) (by exact nofun)
  | makeTree => exact h.create hI (by exact nofun) (by exact nofun) (by exact nofun)
  | loadTree => exact h.create hI (by exact nofun) (by exact nofun) (by exact nofun)
  | @search t sizes cells m =>
    have hc : ∃ b, cells = refillAll b [] sizes := by
      unfold step at hs
      simp only at hs
      split at hs
      · split at hs
        · have := congrArg World.objs (Option.some.inj hs)
          have := congrFun this w.next
          simp only [World.create, Function.update_self] at this
          cases this
          exact ⟨_, rfl⟩
        · cases hs
      · cases hs
    obtain ⟨b, rfl⟩ := hc
    exact (h.create hI (fun c e => by cases e; exact refillAll_le _ _ _) (by exact nofun) (by exact nofun)).block _
  | @getSlice d ps cells m =>
    have hc : ∃ b ss, cells = refillAll b [] ss := by
      unfold step at hs
      simp only at hs
      split at hs
      · split at hs
        · have := congrArg World.objs (Option.some.inj hs)
          have := congrFun this w.next
          simp only [World.create, Function.update_self] at this
          cases this
          exact ⟨_, _, rfl⟩
        · cases hs
      · cases hs
    obtain ⟨b, ss, rfl⟩ := hc
    exact (h.create hI (fun c e => by cases e; exact refillAll_le _ _ _) (by exact nofun) (by exact nofun)).block _
  | getItem hd hc =>
    refine h.create hI (by exact nofun) (fun d b n e => ?_) (by exact nofun)
    cases e
    have hm := List.mem_of_getElem? hc
    exact ⟨_, hd, _, hm, rfl, h.cell _ _ hd _ hm⟩
  | makeIter hd =>
    refine h.create hI (by exact nofun) (by exact nofun) (fun d b n e => ?_)
    cases e
    exact ⟨_, hd, Nat.zero_le _, Nat.le_refl _⟩
  | del => exact ⟨h.cell, h.view, h.iter⟩
  | @searchInto t d sizes cells hd =>
    have hfit := hf cells hd
    have hlen : cells.length ≤ sizes.length := by
      have := hfit.length_eq
      rw [List.length_take] at this
      omega
    refine ⟨?_, ?_, ?_⟩
    · intro o c e
      by_cases ho : o = d
      · subst ho
        simp only [Function.update_self] at e
        cases e
        exact refillAll_le _ _ _
      · simp only [Function.update_of_ne ho] at e
        exact h.cell o c e
    · intro v d' b n e
      by_cases ho : v = d
      · subst ho
        simp only [Function.update_self] at e
        cases e
      · simp only [Function.update_of_ne ho] at e
        obtain ⟨cs, e, c, hc, hb, hn⟩ := h.view v d' b n e
        by_cases hdd : d' = d
        · subst hdd
          rw [hd] at e
          cases e
          obtain ⟨c', hm, e1, e2⟩ := refillAll_keeps w.nextBlock cells sizes hfit c hc
          exact ⟨_, Function.update_self _ _ _, c', hm, e1.trans hb, e2 ▸ hn⟩
        · exact ⟨cs, (Function.update_of_ne hdd _ _).trans e, c, hc, hb, hn⟩
    · intro v d' i s e
      by_cases ho : v = d
      · subst ho
        simp only [Function.update_self] at e
        cases e
      · simp only [Function.update_of_ne ho] at e
        obtain ⟨cs, e, h1, h2⟩ := h.iter v d' i s e
        by_cases hdd : d' = d
        · subst hdd
          rw [hd] at e
          cases e
          exact ⟨_, Function.update_self _ _ _, h1, by rw [refillAll_length]; omega⟩
        · exact ⟨cs, (Function.update_of_ne hdd _ _).trans e, h1, h2⟩
  | @nextItem it d i stop cells c hi hst hd hc =>
    have hne : ∀ p cs, w.objs p = some (.darray cs) → p ≠ it := by
      intro p cs e e'
      rw [e', hi] at e
      cases e
    have h1 : Inv { w with objs := Function.update w.objs it (some (.iter d (i + 1) stop)) } :=
      hI.update (Or.inr ⟨_, _, _, _, _, hi, rfl⟩)
    have h2 : FitInv { w with objs := Function.update w.objs it (some (.iter d (i + 1) stop)) } := by
      refine ⟨?_, ?_, ?_⟩
      · intro o cs e
        by_cases ho : o = it
        · subst ho; simp only [Function.update_self] at e; cases e
        · simp only [Function.update_of_ne ho] at e
          exact h.cell o cs e
      · intro v d' b n e
        by_cases ho : v = it
        · subst ho; simp only [Function.update_self] at e; cases e
        · simp only [Function.update_of_ne ho] at e
          obtain ⟨cs, e, h3⟩ := h.view v d' b n e
          exact ⟨cs, (Function.update_of_ne (hne _ _ e) _ _).trans e, h3⟩
      · intro v d' j s e
        by_cases ho : v = it
        · subst ho
          simp only [Function.update_self] at e
          cases e
          obtain ⟨cs, e, h3, h4⟩ := h.iter v _ _ _ hi
          exact ⟨cs, (Function.update_of_ne (hne _ _ e) _ _).trans e, by omega, h4⟩
        · simp only [Function.update_of_ne ho] at e
          obtain ⟨cs, e, h3⟩ := h.iter v d' j s e
          exact ⟨cs, (Function.update_of_ne (hne _ _ e) _ _).trans e, h3⟩
    refine h2.create h1 (by exact nofun) (fun d' b n e => ?_) (by exact nofun)
    cases e
    have hm := List.mem_of_getElem? hc
    exact ⟨cells, (Function.update_of_ne (hne _ _ hd) _ _).trans hd, c, hm, rfl, h.cell _ _ hd _ hm⟩

theorem exec_fit {ops : List Op} {w : World} (h : exec .empty ops = some w) (hf : AllFit .empty ops) :
    FitInv w := by
  suffices H : ∀ (ops : List Op) {w w' : World}, Inv w → FitInv w → AllFit w ops → exec w ops = some w' →
      FitInv w' from H ops Inv.empty ⟨nofun, nofun, nofun⟩ hf h
  intro ops
  induction ops with
  | nil => intro w w' _ h _ e; cases e; exact h
  | cons op ops ih =>
    intro w w' hI hF hA e
    unfold exec at e
    cases hs : step w op with
    | none => rw [hs] at e; cases e
    | some w1 =>
      rw [hs] at e
      exact ih (step_inv hI (steps_of_step hs)) (step_fit hI hF hA.1 hs) (hA.2 w1 hs) e

/-- C59 (index): a view made by `d[i]` keeps its `DArray`, whatever the program did before and does later,
for as long as the view itself can be used. -/
theorem c59_item {pre post : List Op} {w0 w1 w2 : World} {d i : Nat} (h0 : exec .empty pre = some w0)
    (h1 : step w0 (.getItem d i) = some w1) (h2 : exec w1 post = some w2) :
    (∃ b n, w2.objs w0.next = some (.view d b n)) ∧ (∃ cells, w2.objs d = some (.darray cells)) ∧
      (Alive w2 w0.next → Alive w2 d) := by
  have hk := exec_keeps post h2
  have hI := exec_inv h0
  cases steps_of_step h1 with
  | @getItem _ _ cells c hd hc =>
    have hn : w0.next < (w0.create (.view d c.block c.size) [d]).next := Nat.lt_succ_self _
    have hv : (w0.create (.view d c.block c.size) [d]).objs w0.next = some (.view d c.block c.size) :=
      Function.update_self _ _ _
    refine ⟨⟨_, _, hk.view _ hn _ _ _ hv⟩, ?_, fun hal => .ref hal ?_⟩
    · have hlt := hI.fresh d _ hd
      obtain ⟨c', e⟩ := (keeps_create w0 (.view d c.block c.size) [d]).darray d hlt _ hd
      exact hk.darray d (Nat.lt_trans hlt hn) c' e
    · rw [hk.refs _ hn, create_refs_self]
      simp

/-- C59 (partial): if results that are written to an existing `DArray` fit into its memory, every view whose
`DArray` still exists is safe, and every iterator that can be used is safe.  Missing: views from an iteration
whose `DArray` was deleted (`c59_iter_false`), results that do not fit (`c59_reuse_false`,
`c59_shrink_false`). -/
theorem c59_partial {ops : List Op} {w : World} (h : exec .empty ops = some w) (hf : AllFit .empty ops) :
    (∀ v d b n, w.objs v = some (.view d b n) → Alive w d → ViewOk w v) ∧
    (∀ it, Alive w it → IterOk w it) := by
  have hF := exec_fit h hf
  have hI := exec_inv h
  constructor
  · intro v d b n e hal d' b' n' e' _
    rw [e] at e'
    cases e'
    exact ⟨hal, hF.view v d b n e⟩
  · intro it hal d i s e
    exact ⟨.ref hal (hI.iter it d i s e).1, hF.iter it d i s e⟩

/-- C59 (partial): if also no `DArray` is iterated, every view that can be used is safe. -/
theorem c59_item_partial {ops : List Op} {w : World} (h : exec .empty ops = some w) (hf : AllFit .empty ops)
    (hn : ∀ it, Op.nextItem it ∉ ops) : ∀ v, Alive w v → ViewOk w v := by
  have key : ∀ v d b n, w.objs v = some (.view d b n) → d ∈ w.refs v := by
    refine exec_induction (P := fun w => ∀ v d b n, w.objs v = some (.view d b n) → d ∈ w.refs v)
      (Q := fun _ op => ∀ a, op ≠ .nextItem a) ?_ ops (w := .empty) nofun ?_ h
    · intro w w' op hP hQ hs v d b n e
      have hc : ∀ {x : Obj} {r : List Nat}, (∀ d b n, x = .view d b n → d ∈ r) →
          (w.create x r).objs v = some (.view d b n) → d ∈ (w.create x r).refs v := by
        intro x r hx e
        rcases create_objs e with ⟨rfl, e'⟩ | ⟨ho, e⟩
        · rw [create_refs_self]; exact hx d b n e'.symm
        · rw [create_refs_ne ho]; exact hP v d b n e
      cases hs with
      | newArray => exact hc (by exact nofun) e
      | makeTree => exact hc (by exact nofun) e
      | loadTree => exact hc (by exact nofun) e
      | search => exact hc (by exact nofun) e
      | getItem => exact hc (fun d b n e => by cases e; simp) e
      | getSlice => exact hc (by exact nofun) e
      | makeIter => exact hc (by exact nofun) e
      | del => exact hP v d b n e
      | searchInto hd =>
        refine hP v d b n ?_
        simp only at e
        rw [← e]
        refine (Function.update_of_ne ?_ _ _).symm
        intro ht
        rw [ht, Function.update_self] at e
        cases e
      | nextItem => exact absurd rfl (hQ _)
    · intro pre op post e _ _ a ha
      exact hn a (by rw [e, ha]; simp)
  intro v hal d b n e
  exact (c59_partial h hf).1 v d b n e (.ref hal (key v d b n e)) d b n e

theorem alive_in {w : World} (l : List Nat) (h1 : ∀ o ∈ w.vars, o ∈ l)
    (h2 : ∀ o ∈ l, ∀ p ∈ w.refs o, p ∈ l) {o : Nat} (h : Alive w o) : o ∈ l := by
  induction h with
  | var h => exact h1 _ h
  | ref _ hr ih => exact h2 _ ih _ hr

/-- `views = [v for v in t.search_radius(...)]`: when the loop is over, neither the result nor its iterator
is in a variable. -/
def exViews : List Op :=
  [.newArray, .makeTree 0, .search 1 [2], .makeIter 2, .nextItem 3, .del 3, .del 2]

/-- C59 fails for the code: the views of an iteration do not keep the `DArray`. -/
theorem c59_iter_false : ∃ w, exec .empty exViews = some w ∧ Alive w 4 ∧ ¬ ViewOk w 4 := by
  refine ⟨_, rfl, .var (by decide), fun h => ?_⟩
  have h2 := (h 2 0 2 rfl (by decide)).1
  have hm := alive_in [0, 1, 4] (by decide) (by decide) h2
  exact absurd hm (by decide)

/-- `v = d[0]; t.search_radius(..., d)`. -/
def exReuse : List Op :=
  [.newArray, .makeTree 0, .search 1 [1], .getItem 2 0, .searchInto 1 2 [2]]

/-- C59 fails for the code: a larger result moves the elements to another block. -/
theorem c59_reuse_false : ∃ w, exec .empty exReuse = some w ∧ Alive w 3 ∧ ¬ ViewOk w 3 := by
  refine ⟨_, rfl, .var (by decide), fun h => ?_⟩
  obtain ⟨_, cells, e, c, hc, hb, _⟩ := h 2 0 1 rfl (by decide)
  have e' : some (Obj.darray [⟨1, 2, 2⟩]) = some (.darray cells) := e
  cases e'
  simp only [List.mem_singleton] at hc
  rw [hc] at hb
  cases hb

/-- `for v in d: t.search_radius(..., d)` with fewer queries. -/
def exShrink : List Op :=
  [.newArray, .makeTree 0, .search 1 [1, 1], .makeIter 2, .nextItem 3, .searchInto 1 2 [1]]

/-- C59 fails for the code: the end of an iteration is fixed at its start. -/
theorem c59_shrink_false : ∃ w, exec .empty exShrink = some w ∧ Alive w 3 ∧ ¬ IterOk w 3 := by
  refine ⟨_, rfl, .var (by decide), fun h => ?_⟩
  obtain ⟨_, cells, e, _, hs⟩ := h 2 1 2 rfl
  have e' : some (Obj.darray [⟨0, 1, 1⟩]) = some (.darray cells) := e
  cases e'
  simp at hs

/-- A program that meets the hypotheses of the partial theorems: the `DArray` and the tree are deleted, and
the view still works. -/
example : ∃ w, exec .empty [.newArray, .makeTree 0, .search 1 [2, 3], .getItem 2 1, .searchInto 1 2 [1, 3, 5],
    .del 2, .del 1, .del 0] = some w ∧ Alive w 3 ∧ w.vars = [3] ∧
    w.objs 3 = some (.view 2 1 3) ∧
    w.objs 2 = some (.darray [⟨0, 2, 1⟩, ⟨1, 3, 3⟩, ⟨4, 5, 5⟩]) :=
  ⟨_, rfl, .var (by decide), by decide, rfl, rfl⟩

example : AllFit .empty [.newArray, .makeTree 0, .search 1 [2, 3], .getItem 2 1, .searchInto 1 2 [1, 3, 5]] := by
  refine ⟨trivial, fun _ e => ?_⟩
  cases e
  refine ⟨trivial, fun _ e => ?_⟩
  cases e
  refine ⟨trivial, fun _ e => ?_⟩
  cases e
  refine ⟨trivial, fun _ e => ?_⟩
  cases e
  refine ⟨fun cells e => ?_, fun _ _ => trivial⟩
  have e' : some (Obj.darray [⟨0, 2, 2⟩, ⟨1, 3, 3⟩]) = some (.darray cells) := e
  cases e'
  exact .cons (by decide) (.cons (by decide) .nil)

end Pico.Props
