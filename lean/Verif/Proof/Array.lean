import Verif.SpecPython
import Mathlib.Tactic.Ring
import Mathlib.Tactic.Linarith

/-!
# Views of arrays
-/

namespace Pico

open Spec

section
variable {τ : Type}

theorem Call.exists_of_check {x : Call τ} {p : τ → Bool} (h : x.check p = true) :
    ∃ a, x = .ok a ∧ p a = true := by
  cases x with
  | ok a => exact ⟨a, rfl, h⟩
  | _ => simp [Call.check] at h

theorem forall₂_two {r c : Nat} {idx : List Nat} :
    InShape [r, c] idx ↔ ∃ i j, idx = [i, j] ∧ i < r ∧ j < c := by
  unfold InShape
  constructor
  · intro h
    cases h with
    | cons h1 h2 =>
      cases h2 with
      | cons h2 h3 =>
        cases h3
        exact ⟨_, _, rfl, h1, h2⟩
  · rintro ⟨i, j, rfl, h1, h2⟩
    exact .cons h1 (.cons h2 .nil)

theorem length_two {ι : Type} {l : List ι} (h : l.length = 2) : ∃ x y, l = [x, y] := by
  match l, h with
  | [x, y], _ => exact ⟨x, y, rfl⟩

theorem pos_two {a : NArray τ} {s0 s1 : Int} (hs : a.strides = [s0, s1]) (i j : Nat) :
    a.pos [i, j] = a.base + (i * s0 + j * s1) := by
  simp [NArray.pos, hs]

/-- Positions in a C ordered array of two dimensions. -/
theorem isC_pos {a : NArray τ} {r c i j : Nat} {s0 s1 : Int} (hsh : a.shape = [r, c])
    (hst : a.strides = [s0, s1]) (h : a.isC = true) (hi : i < r) (hj : j < c) :
    a.pos [i, j] = a.base + ((i * c + j : Nat) : Int) := by
  rw [pos_two hst]
  congr 1
  have hr : r ≠ 0 := by omega
  have hc : c ≠ 0 := by omega
  simp only [NArray.isC, hsh, hst, List.any_cons, List.any_nil, Bool.or_false, List.zip_cons_cons,
    List.zip_nil_right, List.reverse_cons, List.reverse_nil, List.nil_append, List.cons_append] at h
  simp only [Bool.or_self, Bool.false_or, contiguous, beq_eq_false_iff_ne.2 hr,
    beq_eq_false_iff_ne.2 hc] at h
  push_cast
  by_cases h1 : c = 1
  · subst h1
    have : j = 0 := by omega
    subst this
    by_cases h2 : r = 1
    · subst h2
      have : i = 0 := by omega
      subst this
      simp
    · simp [h2] at h
      simp [h]
  · by_cases h2 : r = 1
    · subst h2
      have : i = 0 := by omega
      subst this
      simp [h1] at h
      simp [h]
    · simp [h1, h2] at h
      rw [h.1, h.2]
      ring

/-- Positions in an F ordered array of two dimensions. -/
theorem isF_pos {a : NArray τ} {r c i j : Nat} {s0 s1 : Int} (hsh : a.shape = [r, c])
    (hst : a.strides = [s0, s1]) (h : a.isF = true) (hi : i < r) (hj : j < c) :
    a.pos [i, j] = a.base + ((j * r + i : Nat) : Int) := by
  rw [pos_two hst]
  congr 1
  have hr : r ≠ 0 := by omega
  have hc : c ≠ 0 := by omega
  simp only [NArray.isF, hsh, hst, List.any_cons, List.any_nil, Bool.or_false, List.zip_cons_cons,
    List.zip_nil_right] at h
  simp only [Bool.or_self, Bool.false_or, contiguous, beq_eq_false_iff_ne.2 hr,
    beq_eq_false_iff_ne.2 hc] at h
  push_cast
  by_cases h1 : r = 1
  · subst h1
    have : i = 0 := by omega
    subst this
    by_cases h2 : c = 1
    · subst h2
      have : j = 0 := by omega
      subst this
      simp
    · simp [h2] at h
      simp [h]
  · by_cases h2 : c = 1
    · subst h2
      have : j = 0 := by omega
      subst this
      simp [h1] at h
      simp [h]
    · simp [h1, h2] at h
      rw [h.1, h.2]
      ring

/-- When `make_map` succeeds. -/
theorem makeMap_ok {Dim : Option Nat} {a : NArray τ} {m : SpaceMap τ} (h : makeMap Dim a = .ok m) :
    ∃ r c, a.shape = [r, c] ∧ (a.isC = true ∨ a.isF = true) ∧ m.buf = a.buf ∧ m.data = a.base ∧
      m.rowMajor = a.isC ∧ (a.isC = true → m.size = r ∧ m.sdim = c) ∧
      (a.isC = false → m.size = c ∧ m.sdim = r) ∧ (∀ D, Dim = some D → m.sdim = D) := by
  unfold makeMap at h
  split at h
  · cases h
  next hl =>
  split at h
  · cases h
  next hc =>
  obtain ⟨r, c, hsh⟩ := length_two (by simpa using hl)
  have hc' : a.isC = true ∨ a.isF = true := by
    cases h1 : a.isC <;> cases h2 : a.isF <;> simp_all
  simp only [NArray.innerStride, NArray.outerStride, hsh] at h
  refine ⟨r, c, hsh, hc', ?_⟩
  cases hC : a.isC with
  | true =>
    simp only [hC, if_true, List.getElem?_cons_succ, List.getElem?_cons_zero] at h
    split at h
    · cases h
    next hd =>
    cases h
    cases Dim with
    | none => simp [SpaceMap.mk']
    | some D =>
      simp only [isDimCompatible, Bool.not_eq_true', Bool.not_eq_false, beq_iff_eq] at hd
      simp [SpaceMap.mk', hd]
  | false =>
    simp only [hC, Bool.false_eq_true, if_false, List.getElem?_cons_succ, List.getElem?_cons_zero] at h
    split at h
    · cases h
    next hd =>
    cases h
    cases Dim with
    | none => simp [SpaceMap.mk']
    | some D =>
      simp only [isDimCompatible, Bool.not_eq_true', Bool.not_eq_false, beq_iff_eq] at hd
      simp [SpaceMap.mk', hd]

/-- The coordinates a view reads. -/
theorem makeMap_coord {Dim : Option Nat} {a : NArray τ} {m : SpaceMap τ} (hv : Valid a)
    (h : makeMap Dim a = .ok m) {i j : Nat} (hi : i < m.size) (hj : j < m.sdim) :
    (m.coord i j).isSome = true ∧ m.coord i j = a.get (if a.isC then [i, j] else [j, i]) := by
  obtain ⟨r, c, hsh, hcf, hb, hd, -, hC, hF, -⟩ := makeMap_ok h
  obtain ⟨s0, s1, hst⟩ := length_two (l := a.strides) (by rw [hv.dims, hsh]; rfl)
  cases hc : a.isC with
  | true =>
    obtain ⟨h1, h2⟩ := hC hc
    rw [h1] at hi
    rw [h2] at hj
    have hp := isC_pos hsh hst hc hi hj
    have he : m.coord i j = a.get [i, j] := by
      unfold SpaceMap.coord NArray.get
      rw [hp, hb, hd, h2]
    rw [if_pos rfl, he]
    exact ⟨hv.inside _ (hsh ▸ forall₂_two.2 ⟨i, j, rfl, hi, hj⟩), rfl⟩
  | false =>
    obtain ⟨h1, h2⟩ := hF hc
    rw [h1] at hi
    rw [h2] at hj
    have hf : a.isF = true := by simpa [hc] using hcf
    have hp := isF_pos hsh hst hf hj hi
    have he : m.coord i j = a.get [j, i] := by
      unfold SpaceMap.coord NArray.get
      rw [hp, hb, hd, h2]
    rw [if_neg (by simp), he]
    exact ⟨hv.inside _ (hsh ▸ forall₂_two.2 ⟨j, i, rfl, hj, hi⟩), rfl⟩

theorem SpaceMap.point_eq {m : SpaceMap τ} {d i : Nat} (h : ∀ j < d, (m.coord i j).isSome = true) :
    ∃ x : Pt τ d, m.point d i = some x ∧ ∀ j : Fin d, m.coord i j = some (x j) := by
  have hh : ∀ j : Fin d, (m.coord i j).isSome = true := fun j => h j j.2
  refine ⟨fun j => (m.coord i j).get (hh j), ?_, fun j => by simp⟩
  unfold SpaceMap.point
  rw [dif_pos hh]

theorem makeMap_point {Dim : Option Nat} {a : NArray τ} {m : SpaceMap τ} (hv : Valid a)
    (h : makeMap Dim a = .ok m) {i : Nat} (hi : i < m.size) :
    ∃ x : Pt τ m.sdim, m.point m.sdim i = some x ∧
      ∀ j : Fin m.sdim, a.get (if a.isC then [i, j.1] else [j.1, i]) = some (x j) := by
  obtain ⟨x, h1, h2⟩ := SpaceMap.point_eq (m := m) (d := m.sdim) (i := i) fun j hj =>
    (makeMap_coord hv h hi hj).1
  exact ⟨x, h1, fun j => by rw [← (makeMap_coord hv h hi j.2).2]; exact h2 j⟩

/-- `make_map` accepts arrays of points of a compatible dimension. -/
theorem makeMap_of_points {Dim : Option Nat} {a : NArray τ} {n d : Nat} (hv : Valid a)
    (hp : Points a n d) (hD : Dim = none ∨ Dim = some d) :
    ∃ m, makeMap Dim a = .ok m ∧ m.size = n ∧ m.sdim = d ∧ m.rowMajor = a.isC ∧ m.buf = a.buf ∧
      m.data = a.base ∧ ∀ i < n, ∃ x : Pt τ d, m.point d i = some x ∧ IsPoint a i x := by
  have hex : ∃ m, makeMap Dim a = .ok m ∧ m.size = n ∧ m.sdim = d := by
    unfold makeMap NArray.innerStride NArray.outerStride
    rcases hp with ⟨h1, h2⟩ | ⟨h1, h2, h3⟩
    · rcases hD with rfl | rfl <;> simp [h1, h2, isDimCompatible, SpaceMap.mk']
    · rcases hD with rfl | rfl <;> simp [h1, h2, h3, isDimCompatible, SpaceMap.mk']
  obtain ⟨m, h1, h2, h3⟩ := hex
  obtain ⟨r, c, -, -, hb, hd, hr, -⟩ := makeMap_ok h1
  refine ⟨m, h1, h2, h3, hr, hb, hd, fun i hi => ?_⟩
  subst h2 h3
  exact makeMap_point hv h1 hi

theorem isPoint_unique {a : NArray τ} {d i : Nat} {x y : Fin d → τ} (hx : IsPoint a i x)
    (hy : IsPoint a i y) : x = y := by
  funext j
  have := (hx j).symm.trans (hy j)
  simpa using this

theorem readAt_isSome {buf : List τ} {p : Int} (h : (readAt buf p).isSome = true) :
    0 ≤ p ∧ p.toNat < buf.length := by
  unfold readAt at h
  split at h
  next h0 => exact ⟨h0, by simpa using h⟩
  · simp at h

/-- The memory of a contiguous array of two dimensions that has elements. -/
theorem contiguous_inside {a : NArray τ} {r c : Nat} (hv : Valid a) (hsh : a.shape = [r, c])
    (hcf : a.isC = true ∨ a.isF = true) (hr : 0 < r) (hc : 0 < c) :
    ∃ b : Nat, a.base = b ∧ b + r * c ≤ a.buf.length := by
  obtain ⟨s0, s1, hst⟩ := length_two (l := a.strides) (by rw [hv.dims, hsh]; rfl)
  have h0 := readAt_isSome (hv.inside [0, 0] (hsh ▸ forall₂_two.2 ⟨0, 0, rfl, hr, hc⟩))
  have h1 := readAt_isSome (hv.inside [r - 1, c - 1]
    (hsh ▸ forall₂_two.2 ⟨r - 1, c - 1, rfl, by omega, by omega⟩))
  obtain ⟨r, rfl⟩ : ∃ r', r = r' + 1 := ⟨r - 1, by omega⟩
  obtain ⟨c, rfl⟩ : ∃ c', c = c' + 1 := ⟨c - 1, by omega⟩
  simp only [Nat.add_sub_cancel] at h1
  rcases hcf with h | h
  · rw [isC_pos hsh hst h (by omega) (by omega)] at h0 h1
    refine ⟨a.base.toNat, by simp at h0; omega, ?_⟩
    have e : (r + 1) * (c + 1) = r * (c + 1) + c + 1 := by ring
    simp at h0
    omega
  · rw [isF_pos hsh hst h (by omega) (by omega)] at h0 h1
    refine ⟨a.base.toNat, by simp at h0; omega, ?_⟩
    have e : (r + 1) * (c + 1) = c * (r + 1) + r + 1 := by ring
    simp at h0
    omega

end

section
variable {α : Type} [Add α]

theorem sumMem_eq (f : α → α → α) (b1 b2 : List α) (p1 p2 : Int) (n : Nat) (acc : α)
    (x y : Nat → α) (hx : ∀ j < n, readAt b1 (p1 + j) = some (x j))
    (hy : ∀ j < n, readAt b2 (p2 + j) = some (y j)) :
    sumMem f b1 p1 b2 p2 n acc = some ((List.range n).foldl (fun acc j => acc + f (x j) (y j)) acc) := by
  induction n generalizing p1 p2 acc x y with
  | zero => rfl
  | succ n ih =>
    have h1 := hx 0 (by omega)
    have h2 := hy 0 (by omega)
    simp only [Nat.cast_zero, add_zero] at h1 h2
    unfold sumMem
    rw [h1, h2]
    simp only
    rw [ih (p1 + 1) (p2 + 1) _ (fun j => x (j + 1)) (fun j => y (j + 1))
      (fun j hj => by rw [← hx (j + 1) (by omega)]; congr 1; push_cast; ring)
      (fun j hj => by rw [← hy (j + 1) (by omega)]; congr 1; push_cast; ring)]
    rw [List.range_succ_eq_map, List.foldl_cons, List.foldl_map]

theorem sumMem_none (f : α → α → α) (b1 b2 : List α) (p1 p2 : Int) (n : Nat) (acc : α) (j : Nat)
    (hj : j < n) (h : readAt b2 (p2 + j) = none) : sumMem f b1 p1 b2 p2 n acc = none := by
  induction n generalizing p1 p2 acc j with
  | zero => omega
  | succ n ih =>
    unfold sumMem
    split
    next v w hv hw =>
      cases j with
      | zero =>
        simp only [Nat.cast_zero, add_zero] at h
        rw [h] at hw
        cases hw
      | succ j =>
        exact ih _ _ _ j (by omega) (by rw [← h]; congr 1; push_cast; ring)
    · rfl

omit [Add α] in
theorem foldl_finRange {d : Nat} (g : α → Nat → α) (acc : α) :
    (List.finRange d).foldl (fun acc (j : Fin d) => g acc j) acc = (List.range d).foldl g acc := by
  rw [← List.map_coe_finRange_eq_range, List.foldl_map]

end

end Pico
