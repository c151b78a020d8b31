import Verif.Model.Parallel
import Mathlib.Data.List.Basic

/-!
# Interleavings of programs with disjoint footprints
-/

namespace Pico

namespace Prog
variable {τ : Type} {F : Nat → Prop}

theorem run_congr {P : Prog τ} (h : P.Within F) {m m' : Nat → τ} (hm : ∀ a, F a → m a = m' a) :
    ∀ a, F a → P.run m a = P.run m' a := by
  induction P generalizing m m' with
  | done => exact hm
  | read b next ih =>
    intro a ha
    simp only [run]
    rw [hm b h.1]
    exact ih _ (h.2 _) hm a ha
  | write b v next ih =>
    intro a ha
    simp only [run]
    refine ih h.2 (fun c hc => ?_) a ha
    by_cases e : c = b
    · subst e; simp
    · simp [e, hm c hc]

theorem run_outside {P : Prog τ} (h : P.Within F) (m : Nat → τ) {a : Nat} (ha : ¬ F a) :
    P.run m a = m a := by
  induction P generalizing m with
  | done => rfl
  | read b next ih => exact ih _ (h.2 _) m
  | write b v next ih =>
    simp only [run]
    rw [ih h.2]
    have : a ≠ b := fun e => ha (e ▸ h.1)
    simp [this]

theorem access_within {P : Prog τ} (h : P.Within F) {a : Nat} {w : Bool}
    (ha : P.access = some (a, w)) : F a := by
  cases P with
  | done => simp [access] at ha
  | read b next => simp only [access, Option.some.injEq, Prod.mk.injEq] at ha; exact ha.1 ▸ h.1
  | write b v next => simp only [access, Option.some.injEq, Prod.mk.injEq] at ha; exact ha.1 ▸ h.1

end Prog

section
variable {τ : Type} {F : Nat → Nat → Prop}

/-- What every interleaving preserves. -/
structure ParInv (F : Nat → Nat → Prop) (s s' : ParState τ) : Prop where
  within : ∀ i, (s'.progs i).Within (F i)
  same : ∀ i a, F i a → (s'.progs i).run s'.mem a = (s.progs i).run s.mem a
  outside : ∀ a, (∀ i, ¬ F i a) → s'.mem a = s.mem a

theorem ParInv.refl {s : ParState τ} (h : ∀ i, (s.progs i).Within (F i)) : ParInv F s s :=
  ⟨h, fun _ _ _ => rfl, fun _ _ => rfl⟩

theorem ParInv.step (hF : ∀ i j a, F i a → F j a → i = j) {s s' s'' : ParState τ}
    (h : ParInv F s s') (hs : ParStep s' s'') : ParInv F s s'' := by
  cases hs with
  | read i b next hp =>
    have hw := h.within i
    rw [hp] at hw
    refine ⟨fun j => ?_, fun j a ha => ?_, h.outside⟩
    · by_cases e : j = i
      · subst e; simpa using hw.2 _
      · simpa [e] using h.within j
    · by_cases e : j = i
      · subst e
        have := h.same j a ha
        rw [hp] at this
        simpa [Prog.run] using this
      · simpa [e] using h.same j a ha
  | write i b v next hp =>
    have hw := h.within i
    rw [hp] at hw
    refine ⟨fun j => ?_, fun j a ha => ?_, fun a ha => ?_⟩
    · by_cases e : j = i
      · subst e; simpa using hw.2
      · simpa [e] using h.within j
    · by_cases e : j = i
      · subst e
        have := h.same j a ha
        rw [hp] at this
        simpa [Prog.run] using this
      · rw [← h.same j a ha]
        simp only [Function.update_of_ne e]
        refine Prog.run_congr (h.within j) (fun c hc => ?_) a ha
        have : c ≠ b := fun e' => e (hF j i c hc (e' ▸ hw.1))
        simp [this]
    · have : a ≠ b := fun e' => ha i (e' ▸ hw.1)
      simp [this, h.outside a ha]

theorem ParInv.exec (hF : ∀ i j a, F i a → F j a → i = j) {s s' : ParState τ}
    (h : ∀ i, (s.progs i).Within (F i)) (he : ParExec s s') : ParInv F s s' := by
  induction he with
  | refl => exact .refl h
  | tail _ hs ih => exact ih.step hF hs

/-- The result of a finished interleaving: in the footprint of iteration `i` it is the result of running
iteration `i` alone. -/
theorem par_final (hF : ∀ i j a, F i a → F j a → i = j) {s s' : ParState τ}
    (h : ∀ i, (s.progs i).Within (F i)) (he : ParExec s s') (hf : s'.Finished) :
    (∀ i a, F i a → s'.mem a = (s.progs i).run s.mem a) ∧
    ∀ a, (∀ i, ¬ F i a) → s'.mem a = s.mem a := by
  have hi := ParInv.exec hF h he
  refine ⟨fun i a ha => ?_, hi.outside⟩
  have := hi.same i a ha
  rw [hf i] at this
  exact this

/-- No two iterations are ever about to access the same address. -/
theorem par_no_race (hF : ∀ i j a, F i a → F j a → i = j) {s s' : ParState τ}
    (h : ∀ i, (s.progs i).Within (F i)) (he : ParExec s s') {i j a b : Nat} {w w' : Bool} (hij : i ≠ j)
    (ha : (s'.progs i).access = some (a, w)) (hb : (s'.progs j).access = some (b, w')) : a ≠ b := by
  have hi := ParInv.exec hF h he
  intro e
  subst e
  exact hij (hF i j a (Prog.access_within (hi.within i) ha) (Prog.access_within (hi.within j) hb))

/-- One iteration can run to its end. -/
theorem par_run_one (P : Prog τ) (s : ParState τ) (i : Nat) (h : s.progs i = P) :
    ∃ m, ParExec s ⟨Function.update s.progs i .done, m⟩ := by
  induction P generalizing s with
  | done =>
    refine ⟨s.mem, ?_⟩
    rw [← h, Function.update_eq_self]
  | read a next ih =>
    obtain ⟨m, hm⟩ := ih (s.mem a) ⟨Function.update s.progs i (next (s.mem a)), s.mem⟩ (by simp)
    refine ⟨m, Relation.ReflTransGen.head (.read s i a next h) ?_⟩
    simpa using hm
  | write a v next ih =>
    obtain ⟨m, hm⟩ := ih ⟨Function.update s.progs i next, Function.update s.mem a v⟩ (by simp)
    refine ⟨m, Relation.ReflTransGen.head (.write s i a v next h) ?_⟩
    simpa using hm

/-- The loop can always finish: there is no deadlock. -/
theorem par_finishes (n : Nat) (s : ParState τ) (h : ∀ i, n ≤ i → s.progs i = .done) :
    ∃ s', ParExec s s' ∧ s'.Finished := by
  induction n generalizing s with
  | zero => exact ⟨s, .refl, fun i => h i (Nat.zero_le _)⟩
  | succ n ih =>
    obtain ⟨m, hm⟩ := par_run_one _ s n rfl
    obtain ⟨s', h1, h2⟩ := ih ⟨Function.update s.progs n .done, m⟩ (fun i hi => by
      by_cases e : i = n
      · subst e; simp
      · have : n + 1 ≤ i := by omega
        simp [e, h i this])
    exact ⟨s', hm.trans h1, h2⟩

/-- `q` is what is left of `p` after one access. -/
def Prog.Sub (q p : Prog τ) : Prop :=
  (∃ a next v, p = .read a next ∧ q = next v) ∨ ∃ a v, p = .write a v q

theorem Prog.sub_acc (p : Prog τ) : Acc Prog.Sub p := by
  induction p with
  | done => exact ⟨_, fun q hq => by rcases hq with ⟨_, _, _, h, _⟩ | ⟨_, _, h⟩ <;> simp at h⟩
  | read a next ih =>
    refine ⟨_, fun q hq => ?_⟩
    rcases hq with ⟨_, next', v, h, rfl⟩ | ⟨_, _, h⟩
    · simp only [Prog.read.injEq] at h
      rw [← h.2]
      exact ih v
    · simp at h
  | write a v next ih =>
    refine ⟨_, fun q hq => ?_⟩
    rcases hq with ⟨_, next', v, h, rfl⟩ | ⟨_, _, h⟩
    · simp at h
    · simp only [Prog.write.injEq] at h
      rw [← h.2.2]
      exact ih

/-- One of the programs makes a step. -/
def SubAt (g f : Nat → Prog τ) : Prop := ∃ i q, Prog.Sub q (f i) ∧ g = Function.update f i q

theorem subAt_acc_update (n : Nat) {f : Nat → Prog τ} (hf : Acc SubAt f) :
    ∀ P : Prog τ, Acc SubAt (Function.update f n P) := by
  induction hf with
  | intro f _ ih =>
    intro P
    induction Prog.sub_acc P with
    | intro P _ ihP =>
      refine ⟨_, fun g hg => ?_⟩
      obtain ⟨i, q, hq, rfl⟩ := hg
      by_cases e : i = n
      · subst e
        simp only [Function.update_self] at hq
        rw [Function.update_idem]
        exact ihP q hq
      · rw [Function.update_of_ne e] at hq
        rw [Function.update_comm (Ne.symm e)]
        exact ih _ ⟨i, q, hq, rfl⟩ P

theorem subAt_acc (n : Nat) (f : Nat → Prog τ) (h : ∀ i, n ≤ i → f i = .done) : Acc SubAt f := by
  induction n generalizing f with
  | zero =>
    refine ⟨_, fun g hg => ?_⟩
    obtain ⟨i, q, hq, -⟩ := hg
    rw [h i (Nat.zero_le _)] at hq
    rcases hq with ⟨_, _, _, h, _⟩ | ⟨_, _, h⟩ <;> simp at h
  | succ n ih =>
    have h1 := ih (Function.update f n .done) fun i hi => by
      by_cases e : i = n
      · subst e; simp
      · simp [e, h i (by omega)]
    have h2 := subAt_acc_update n h1 (f n)
    rwa [Function.update_idem, Function.update_eq_self] at h2

theorem no_chain {ρ : Type} {R : ρ → ρ → Prop} {x : ρ} (hx : Acc R x) :
    ∀ g : Nat → ρ, g 0 = x → ¬ ∀ t, R (g (t + 1)) (g t) := by
  induction hx with
  | intro x _ ih =>
    intro g h0 hg
    exact ih (g 1) (h0 ▸ hg 0) (fun t => g (t + 1)) rfl fun t => hg (t + 1)

/-- A loop with `n` iterations cannot run forever, whatever the interleaving. -/
theorem par_no_infinite (n : Nat) (f : Nat → ParState τ) (h : ∀ i, n ≤ i → (f 0).progs i = .done) :
    ¬ ∀ t, ParStep (f t) (f (t + 1)) := by
  intro hs
  refine no_chain (subAt_acc n _ h) (fun t => (f t).progs) rfl fun t => ?_
  have key : ∀ s s' : ParState τ, ParStep s s' → SubAt s'.progs s.progs := by
    intro s s' hst
    cases hst with
    | read i a next hp => exact ⟨i, _, Or.inl ⟨a, next, _, hp, rfl⟩, rfl⟩
    | write i a v next hp => exact ⟨i, _, Or.inr ⟨a, v, hp⟩, rfl⟩
  exact key _ _ (hs t)

end

/-! ## Ranges -/

section
variable {τ : Type}

/-- The contents of the addresses `p, …, p + k - 1`. -/
def readRange (m : Nat → τ) (p k : Nat) : List τ := (List.range k).map fun j => m (p + j)

theorem readRange_length (m : Nat → τ) (p k : Nat) : (readRange m p k).length = k := by simp [readRange]

theorem readRange_congr {m m' : Nat → τ} {p k : Nat} (h : ∀ a, p ≤ a → a < p + k → m a = m' a) :
    readRange m p k = readRange m' p k := by
  unfold readRange
  refine List.map_congr_left fun j hj => h _ (by omega) ?_
  have := List.mem_range.1 hj
  omega

/-- The addresses of iteration `i`. -/
def rangeOf (base k i a : Nat) : Prop := base + i * k ≤ a ∧ a < base + i * k + k

theorem rangeOf_disjoint {base k i j a : Nat} (h1 : rangeOf base k i a) (h2 : rangeOf base k j a) :
    i = j := by
  unfold rangeOf at *
  by_contra hne
  rcases Nat.lt_or_gt_of_ne hne with h | h
  · have : (i + 1) * k ≤ j * k := Nat.mul_le_mul_right k h
    rw [Nat.succ_mul] at this
    omega
  · have : (j + 1) * k ≤ i * k := Nat.mul_le_mul_right k h
    rw [Nat.succ_mul] at this
    omega

/-- Writes a list to consecutive addresses. -/
def Prog.writeList (p : Nat) : List τ → Prog τ
  | [] => .done
  | v :: vs => .write p v (Prog.writeList (p + 1) vs)

/-- Reads `k` consecutive elements and continues with them. -/
def Prog.readList (p : Nat) : Nat → (List τ → Prog τ) → Prog τ
  | 0, next => next []
  | k + 1, next => .read p fun v => Prog.readList (p + 1) k fun vs => next (v :: vs)

/-- Reads a range, computes, writes the range. -/
def Prog.onRange (p k : Nat) (f : List τ → List τ) : Prog τ :=
  Prog.readList p k fun s => Prog.writeList p (f s)

theorem Prog.readList_run (p k : Nat) (next : List τ → Prog τ) (m : Nat → τ) :
    (Prog.readList p k next).run m = (next (readRange m p k)).run m := by
  induction k generalizing p next with
  | zero => rfl
  | succ k ih =>
    simp only [Prog.readList, Prog.run]
    rw [ih]
    congr 2
    simp only [readRange, List.range_succ_eq_map, List.map_cons, List.map_map, Nat.add_zero]
    congr 1
    refine List.map_congr_left fun j _ => ?_
    simp only [Function.comp_apply]
    congr 1
    omega

theorem Prog.writeList_run (vs : List τ) (p : Nat) (m : Nat → τ) (a : Nat) :
    (Prog.writeList p vs).run m a = if h : p ≤ a ∧ a < p + vs.length then vs[a - p]'(by omega) else m a := by
  induction vs generalizing p m with
  | nil => simp [Prog.writeList, Prog.run]
  | cons v vs ih =>
    simp only [Prog.writeList, Prog.run, ih]
    by_cases h1 : p + 1 ≤ a ∧ a < p + 1 + vs.length
    · have h2 : p ≤ a ∧ a < p + (v :: vs).length := by simp; omega
      rw [dif_pos h1, dif_pos h2]
      have : a - p = (a - (p + 1)) + 1 := by omega
      simp [this]
    · rw [dif_neg h1]
      by_cases h2 : a = p
      · subst h2
        simp
      · have h3 : ¬ (p ≤ a ∧ a < p + (v :: vs).length) := by simp; omega
        rw [dif_neg h3, Function.update_of_ne h2]

theorem Prog.onRange_run (p k : Nat) (f : List τ → List τ) (hf : ∀ s, s.length = k → (f s).length = k)
    (m : Nat → τ) : readRange ((Prog.onRange p k f).run m) p k = f (readRange m p k) := by
  have hl := hf _ (readRange_length m p k)
  unfold Prog.onRange
  rw [Prog.readList_run]
  refine List.ext_getElem (by simp [readRange_length, hl]) fun j h1 h2 => ?_
  simp only [readRange_length] at h1
  simp only [readRange, List.getElem_map, List.getElem_range]
  rw [Prog.writeList_run, dif_pos (by simp only [readRange] at hl; omega)]
  congr 1
  omega

theorem Prog.writeList_within (F : Nat → Prop) (vs : List τ) (p : Nat)
    (h : ∀ a, p ≤ a → a < p + vs.length → F a) : (Prog.writeList p vs).Within F := by
  induction vs generalizing p with
  | nil => trivial
  | cons v vs ih =>
    exact ⟨h p le_rfl (by simp), ih (p + 1) fun a h1 h2 => h a (by omega) (by simp; omega)⟩

theorem Prog.readList_within (F : Nat → Prop) (k p : Nat) (next : List τ → Prog τ)
    (h : ∀ a, p ≤ a → a < p + k → F a) (hn : ∀ s, s.length = k → (next s).Within F) :
    (Prog.readList p k next).Within F := by
  induction k generalizing p next with
  | zero => exact hn [] rfl
  | succ k ih =>
    refine ⟨h p le_rfl (by omega), fun v => ih (p + 1) _ (fun a h1 h2 => h a (by omega) (by omega)) ?_⟩
    intro s hs
    exact hn _ (by simp [hs])

theorem Prog.onRange_within (p k : Nat) (f : List τ → List τ)
    (hf : ∀ s, s.length = k → (f s).length = k) (F : Nat → Prop)
    (h : ∀ a, p ≤ a → a < p + k → F a) : (Prog.onRange p k f).Within F :=
  Prog.readList_within F k p _ h fun s hs => Prog.writeList_within F _ p fun a h1 h2 =>
    h a h1 (by rw [hf s hs] at h2; exact h2)

end

end Pico
