import Verif.Model.DynamicSpace
import Mathlib.Tactic.Linarith

/-!
# C151, dynamic_space
-/

namespace Pico.Spec

open Dyn

variable {α : Type}

/-- A space as its type promises: all coordinates are there, and the dimension is that of the type. -/
def WellFormed (s : Store α) : Prop := s.data.length = s.size * s.sdim ∧ ∀ n, s.dim = some n → n = s.sdim

/-- `rows` are the points of a space, cut after `k` coordinates. -/
def PointsCut (s : Store α) (k : Nat) (rows : List (List α)) : Prop :=
  rows.length = s.size ∧ ∀ i (h : i < rows.length), rows[i].length = k ∧
    ∀ j (h' : j < rows[i].length), s.data[i * s.sdim + j]? = some rows[i][j]

end Pico.Spec

namespace Pico.Dyn

open Spec

variable {α γ : Type}

theorem readN_ok {f : Nat → Outcome γ} : ∀ (n : Nat), (∀ i < n, ∃ x, f i = .ok x) →
    ∃ xs, readN f n = .ok xs ∧ xs.length = n ∧ ∀ i (h : i < xs.length), f i = .ok xs[i]
  | 0, _ => ⟨[], rfl, rfl, by simp⟩
  | n + 1, h => by
    obtain ⟨xs, h1, h2, h3⟩ := readN_ok n fun i hi => h i (by omega)
    obtain ⟨x, hx⟩ := h n (by omega)
    refine ⟨xs ++ [x], by simp only [readN, h1, hx, Outcome.bind], by simp [h2], fun i hi => ?_⟩
    by_cases e : i < xs.length
    · rw [List.getElem_append_left e]; exact h3 i e
    · have : i = n := by simp at hi; omega
      subst this
      rw [List.getElem_append_right (by omega)]
      simpa [h2] using hx

theorem readN_or {f : Nat → Outcome γ} (hf : ∀ i, f i = .ub ∨ ∃ x, f i = .ok x) :
    ∀ (n : Nat), readN f n = .ub ∨ ∃ xs, readN f n = .ok xs
  | 0 => .inr ⟨[], rfl⟩
  | n + 1 => by
    rcases readN_or hf n with h | ⟨xs, h⟩
    · exact .inl (by simp only [readN, h, Outcome.bind])
    · rcases hf n with h' | ⟨x, h'⟩
      · exact .inl (by simp only [readN, h, h', Outcome.bind])
      · exact .inr ⟨xs ++ [x], by simp only [readN, h, h', Outcome.bind]⟩

theorem readN_ub {f : Nat → Outcome γ} (hf : ∀ i, f i = .ub ∨ ∃ x, f i = .ok x) {i : Nat} (hi : f i = .ub) :
    ∀ (n : Nat), i < n → readN f n = .ub
  | n + 1, hn => by
    rcases readN_or hf n with h | ⟨xs, h⟩
    · simp only [readN, h, Outcome.bind]
    · by_cases e : i < n
      · rw [readN_ub hf hi n e] at h; simp at h
      · obtain rfl : i = n := by omega
        simp only [readN, h, hi, Outcome.bind]

theorem coord_or (s : Store α) (i j : Nat) : s.coord i j = .ub ∨ ∃ x, s.coord i j = .ok x := by
  unfold Store.coord
  split
  · exact .inr ⟨_, rfl⟩
  · exact .inl rfl

theorem coord_ok {s : Store α} {i j : Nat} {x : α} : s.coord i j = .ok x ↔ s.data[i * s.sdim + j]? = some x := by
  unfold Store.coord
  split <;> simp_all

theorem read_cut {s : Store α} (hs : WellFormed s) {k : Nat} (hk : k ≤ s.sdim) :
    ∃ rows, readN (fun i => readN (s.coord i) k) s.size = .ok rows ∧ PointsCut s k rows := by
  have hrow : ∀ i < s.size, ∃ row, readN (s.coord i) k = .ok row ∧ row.length = k ∧
      ∀ j (h : j < row.length), s.coord i j = .ok row[j] := fun i hi =>
    readN_ok k fun j hj => by
      have : i * s.sdim + j < s.data.length := by
        rw [hs.1]
        have := Nat.mul_le_mul_right s.sdim (show i + 1 ≤ s.size from hi)
        rw [Nat.succ_mul] at this
        omega
      exact ⟨s.data[i * s.sdim + j], coord_ok.2 (List.getElem?_eq_getElem this)⟩
  obtain ⟨rows, h1, h2, h3⟩ := readN_ok (f := fun i => readN (s.coord i) k) s.size fun i hi =>
    (hrow i hi).imp fun _ h => h.1
  refine ⟨rows, h1, h2, fun i hi => ?_⟩
  obtain ⟨row, r1, r2, r3⟩ := hrow i (by omega)
  have e := h3 i hi
  simp only [r1, Outcome.ok.injEq] at e
  rw [← e]
  exact ⟨r2, fun j hj => coord_ok.1 (r3 j hj)⟩

theorem read_beyond {s : Store α} (hs : WellFormed s) {k : Nat} (hk : s.sdim < k) (hn : 0 < s.size) :
    readN (fun i => readN (s.coord i) k) s.size = .ub := by
  refine readN_ub (i := s.size - 1) (fun i => readN_or (coord_or s i) k) ?_ _ (by omega)
  refine readN_ub (i := s.sdim) (coord_or s _) ?_ _ hk
  have : (s.size - 1) * s.sdim + s.sdim = s.size * s.sdim := by
    obtain ⟨m, hm⟩ : ∃ m, s.size = m + 1 := ⟨s.size - 1, by omega⟩
    rw [hm, Nat.add_sub_cancel, Nat.succ_mul]
  unfold Store.coord
  rw [List.getElem?_eq_none (by rw [hs.1, this])]

/-- Changes in order. -/
theorem changes_keep : ∀ (cs : List (Change α)) (x : Objs α × DynSpace α),
    (cs.foldl (fun x c => change c x) x).2.sdim = x.2.sdim ∧
    ((cs.foldl (fun x c => change c x) x).2.space.get (cs.foldl (fun x c => change c x) x).1).dim =
      (x.2.space.get x.1).dim
  | [], _ => ⟨rfl, rfl⟩
  | c :: cs, x => by
    obtain ⟨h1, h2⟩ := changes_keep cs (change c x)
    rw [List.foldl_cons]
    refine ⟨h1.trans ?_, h2.trans ?_⟩
    · obtain ⟨μ, ⟨sp, k⟩⟩ := x
      cases c <;> cases sp <;> rfl
    · obtain ⟨μ, ⟨sp, k⟩⟩ := x
      cases c with
      | obj a s =>
        cases sp with
        | own s' => rfl
        | ref b =>
          simp only [change, Held.get]
          split
          · rename_i e; subst e; rfl
          · rfl
      | through s => cases sp <;> simp [change, Held.get]

end Pico.Dyn

namespace Pico.Props

open Spec Dyn

/-- C151 (types): the library works with a space type of its own kind, with a reference to one, and with a dynamic space
of either. References to dynamic spaces and anything nested deeper do not compile, since that would take two conversions. -/
theorem c151_types (t : Ty) : (t.constructible ∧ t.wrappable) ↔ ∃ n d, t = .base n d ∨ t = .ref (.base n d) ∨
    t = .dyn (.base n d) ∨ t = .dyn (.ref (.base n d)) := by
  have hp : ∀ t : Ty, ∃ n d, t.sizeParam = .base n d := by
    intro t
    induction t with
    | base n d => exact ⟨n, d, rfl⟩
    | ref t ih => exact ih
    | dyn t ih => exact ih
  constructor
  · rintro ⟨hc, hw, -⟩
    obtain ⟨n, d, h⟩ := hp t
    refine ⟨n, d, ?_⟩
    rw [h] at hw
    rcases hw with rfl | hw
    · exact .inl rfl
    cases t with
    | base n d => simp [Ty.conv] at hw
    | ref t => simp only [Ty.conv, Option.some.injEq] at hw; subst hw; simp
    | dyn t =>
      cases t <;> simp only [Ty.conv, Option.some.injEq] at hw <;> simp_all
  · rintro ⟨n, d, rfl | rfl | rfl | rfl⟩ <;>
      simp [Ty.constructible, Ty.wrappable, accepts, Ty.conv, Ty.sizeParam, Ty.sdimParam]

/-- C151 (objects): a dynamic space can be made of everything that can be made, except of a reference to a reference; of a
dynamic space too, though the library does not accept the result (`c151_types`). -/
theorem c151_made (t : Ty) : (Ty.dyn t).constructible ↔ t.constructible ∧ ∀ u, t ≠ .ref (.ref u) := by
  have hnr : ∀ v w : Ty, v.sdimParam ≠ .ref w := by
    intro v w
    induction v with
    | base n d => simp [Ty.sdimParam]
    | dyn v => simp [Ty.sdimParam]
    | ref v ih => exact ih
  simp only [Ty.constructible]
  refine and_congr_right fun _ => ?_
  cases t with
  | base n d => simp [accepts, Ty.sdimParam]
  | dyn t => simp [accepts, Ty.sdimParam]
  | ref t =>
    cases t with
    | base n d => simp [accepts, Ty.sdimParam, Ty.conv]
    | dyn t => simp [accepts, Ty.sdimParam, Ty.conv]
    | ref t =>
      simp only [accepts, Ty.sdimParam, Ty.conv, Option.some.injEq]
      constructor
      · rintro (h | h)
        · exact absurd h.symm (hnr _ _)
        · exact absurd h.symm (hnr _ _)
      · intro h
        exact absurd rfl (h t)

section
variable {α : Type} (μ : Objs α) (h : Held α)

/-- C151 (construction): a dynamic space has no compile time dimension, and otherwise the dimension, the number of points
and the coordinates of the space that it was made from; reading all of it is defined and gives the points. -/
theorem c151_new (hs : WellFormed (h.get μ)) : (wrapDyn μ (.new μ h)).dim = none ∧
    (wrapDyn μ (.new μ h)).sdim = (h.get μ).sdim ∧ (wrapHeld μ h).sdim = (h.get μ).sdim ∧
    (wrapDyn μ (.new μ h)).size = (h.get μ).size ∧
    (∀ i j, (wrapDyn μ (.new μ h)).coord i j = (wrapHeld μ h).coord i j) ∧
    ∃ rows, (wrapDyn μ (.new μ h)).readAll = .ok rows ∧ (wrapHeld μ h).readAll = .ok rows ∧
      PointsCut (h.get μ) (h.get μ).sdim rows := by
  have e : (h.get μ).traitsSdim = (h.get μ).sdim := by
    unfold Store.traitsSdim
    cases hd : (h.get μ).dim with
    | none => rfl
    | some n => exact hs.2 n hd
  have e' : (wrapHeld μ h).sdim = (h.get μ).sdim := by
    simp only [wrapHeld]
    split
    · rename_i n hd; exact hs.2 n hd
    · exact e
  obtain ⟨rows, h1, h2⟩ := read_cut hs le_rfl
  refine ⟨rfl, e, e', rfl, fun _ _ => rfl, rows, ?_, ?_, h2⟩
  · simp only [Wrap.readAll, wrapDyn, DynSpace.new, e]; exact h1
  · simp only [Wrap.readAll, e']; exact h1

/-- C151 (changes are shared): what is assigned through the conversion of the dynamic space is what it shows, and for a
reference also what the object is; no other object changes. What is assigned to an object is what a dynamic space of a
reference to it shows; other objects and dynamic spaces stay as they are. The type of an object never changes. -/
theorem c151_shared (k : Nat) (s : Store α) :
    ((change (.through s) (μ, ⟨h, k⟩)).2.space.get (change (.through s) (μ, ⟨h, k⟩)).1 = { s with dim := (h.get μ).dim }) ∧
    (∀ a, h = .ref a → (change (.through s) (μ, ⟨h, k⟩)).1 a = { s with dim := (μ a).dim }) ∧
    (∀ b, h ≠ .ref b → (change (.through s) (μ, ⟨h, k⟩)).1 b = μ b) ∧
    (∀ a, (change (.obj a s) (μ, ⟨h, k⟩)).1 a = { s with dim := (μ a).dim } ∧
      (∀ b, b ≠ a → (change (.obj a s) (μ, ⟨h, k⟩)).1 b = μ b) ∧
      (h = .ref a → (change (.obj a s) (μ, ⟨h, k⟩)).2.space.get (change (.obj a s) (μ, ⟨h, k⟩)).1 =
        { s with dim := (μ a).dim }) ∧
      (h ≠ .ref a → (change (.obj a s) (μ, ⟨h, k⟩)).2.space.get (change (.obj a s) (μ, ⟨h, k⟩)).1 = h.get μ)) := by
  cases h with
  | own s' => exact ⟨rfl, nofun, fun _ _ => rfl, fun a => ⟨by simp [change], fun b hb => by simp [change, hb], nofun, fun _ => rfl⟩⟩
  | ref c =>
    refine ⟨by simp [change, Held.get], fun a ha => ?_, fun b hb => ?_, fun a => ⟨by simp [change],
      fun b hb => by simp [change, hb], fun ha => ?_, fun ha => ?_⟩⟩
    · cases ha; simp [change]
    · have : b ≠ c := fun e => hb (by rw [e])
      simp [change, this]
    · cases ha; simp [change, Held.get]
    · have : c ≠ a := fun e => ha (by rw [e])
      simp [change, Held.get, this]

variable (cs : List (Change α)) {μ' : Objs α} {d : DynSpace α}
  (hc : cs.foldl (fun x c => change c x) (μ, DynSpace.new μ h) = (μ', d))
include hc

/-- C151 (changes): after any changes to the objects of the program the dynamic space still is right if the space has a
compile time dimension, or has the dimension that it had at construction. -/
theorem c151_follows (hs : WellFormed (d.space.get μ'))
    (hd : (h.get μ).dim.isSome = true ∨ (d.space.get μ').sdim = (h.get μ).sdim) :
    (wrapDyn μ' d).sdim = (d.space.get μ').sdim ∧
    ∃ rows, (wrapDyn μ' d).readAll = .ok rows ∧ PointsCut (d.space.get μ') (d.space.get μ').sdim rows := by
  obtain ⟨k1, k2⟩ := changes_keep cs (μ, DynSpace.new μ h)
  rw [hc] at k1 k2
  simp only [DynSpace.new] at k1 k2
  have e : d.sdim = (d.space.get μ').sdim := by
    rw [k1, Store.traitsSdim]
    cases hdim : (h.get μ).dim with
    | none =>
      rw [hdim] at hd
      simpa using (hd.resolve_left (by simp)).symm
    | some n => exact hs.2 n (k2.trans hdim)
  obtain ⟨rows, h1, h2⟩ := read_cut hs le_rfl
  refine ⟨e, rows, ?_, h2⟩
  simp only [Wrap.readAll, wrapDyn, e]
  exact h1

/-- C151 (a stale dimension): the dynamic space keeps the dimension of its construction. If a space without compile time
dimension has more coordinates now, the points are cut; if it has fewer, reading the points runs past their end. -/
theorem c151_stale_false (h0 : WellFormed (h.get μ)) (hs : WellFormed (d.space.get μ')) :
    (wrapDyn μ' d).sdim = (h.get μ).sdim ∧
    ((h.get μ).sdim ≤ (d.space.get μ').sdim → ∃ rows, (wrapDyn μ' d).readAll = .ok rows ∧
      PointsCut (d.space.get μ') (h.get μ).sdim rows) ∧
    ((d.space.get μ').sdim < (h.get μ).sdim → 0 < (d.space.get μ').size → (wrapDyn μ' d).readAll = .ub) := by
  obtain ⟨k1, -⟩ := changes_keep cs (μ, DynSpace.new μ h)
  rw [hc] at k1
  have e : d.sdim = (h.get μ).sdim := k1.trans (c151_new μ h h0).2.1
  refine ⟨e, fun hk => ?_, fun hk hn => ?_⟩
  · obtain ⟨rows, h1, h2⟩ := read_cut hs hk
    exact ⟨rows, by simp only [Wrap.readAll, wrapDyn, e]; exact h1, h2⟩
  · simp only [Wrap.readAll, wrapDyn, e]
    exact read_beyond hs hk hn

end

/-! ### Examples -/

/-- Two points of a fixed dimension, referred to. A third one comes later. -/
example : ∃ rows, (wrapDyn (fun _ => ⟨some 2, 2, 3, [1, 2, 3, 4, 5, 6]⟩)
    (DynSpace.new (fun _ => (⟨some 2, 2, 2, [1, 2, 3, 4]⟩ : Store Nat)) (.ref 0))).readAll = .ok rows ∧
    rows = [[1, 2], [3, 4], [5, 6]] := ⟨_, rfl, rfl⟩

/-- The hypotheses of `c151_follows` for it. -/
example : (wrapDyn (change (.obj 0 ⟨none, 2, 3, [1, 2, 3, 4, 5, 6]⟩)
      (fun _ => (⟨some 2, 2, 2, [1, 2, 3, 4]⟩ : Store Nat), DynSpace.new (fun _ => ⟨some 2, 2, 2, [1, 2, 3, 4]⟩) (.ref 0))).1
    (DynSpace.new (fun _ => ⟨some 2, 2, 2, [1, 2, 3, 4]⟩) (.ref 0))).sdim = 2 :=
  (c151_follows (fun _ => (⟨some 2, 2, 2, [1, 2, 3, 4]⟩ : Store Nat)) (.ref 0)
    [.obj 0 ⟨none, 2, 3, [1, 2, 3, 4, 5, 6]⟩] rfl ⟨rfl, fun _ hn => (Option.some.inj hn).symm⟩ (.inl rfl)).1

/-- A matrix with two points of three coordinates that is resized to three points of two: undefined. -/
example : (wrapDyn (fun _ => ⟨none, 2, 3, [1, 2, 3, 4, 5, 6]⟩)
    (DynSpace.new (fun _ => (⟨none, 3, 2, [1, 2, 3, 4, 5, 6]⟩ : Store Nat)) (.ref 0))).readAll = .ub := rfl

/-- A dynamic space of a reference to a dynamic space can be made, one of a reference to a reference cannot. -/
example (n : Nat) (d : Option Nat) : (Ty.dyn (.ref (.dyn (.base n d)))).constructible ∧
    ¬ (Ty.dyn (.ref (.ref (.base n d)))).constructible := by
  rw [c151_made, c151_made]
  simp [Ty.constructible, accepts, Ty.sdimParam]

/-- A reference to a dynamic space is not accepted. -/
example (n : Nat) (d : Option Nat) : ¬ ((Ty.ref (.dyn (.base n d))).constructible ∧ (Ty.ref (.dyn (.base n d))).wrappable) := by
  rw [c151_types]
  simp

end Pico.Props
