import Verif.Model.AdaptorTest
import Mathlib.Tactic.Linarith

/-!
# C152, the tests of the space adaptors
-/

namespace Pico.Gtest

variable {τ : Type}

theorem compareN_ok {eq : τ → τ → Bool} {ref tst : Nat → Option τ} : ∀ (n : Nat),
    compareN eq ref tst n = .ok true ↔ ∀ j < n, ∃ x y, ref j = some x ∧ tst j = some y ∧ eq x y = true
  | 0 => by simp [compareN]
  | n + 1 => by
    have ih := compareN_ok (eq := eq) (ref := ref) (tst := tst) n
    constructor
    · intro h
      rw [compareN] at h
      cases hc : compareN eq ref tst n with
      | ub => rw [hc] at h; simp [Outcome.bind] at h
      | oof => rw [hc] at h; simp [Outcome.bind] at h
      | ok b =>
        rw [hc] at h
        cases hr : ref n with
        | none => simp [Outcome.bind, hr] at h
        | some x =>
          cases ht : tst n with
          | none => simp [Outcome.bind, hr, ht] at h
          | some y =>
            simp only [Outcome.bind, hr, ht, Outcome.ok.injEq, Bool.and_eq_true] at h
            intro j hj
            by_cases e : j < n
            · exact ih.1 (by rw [hc, h.1]) j e
            · obtain rfl : j = n := by omega
              exact ⟨x, y, hr, ht, h.2⟩
    · intro h
      obtain ⟨x, y, hx, hy, e⟩ := h n (by omega)
      rw [compareN, ih.2 fun j hj => h j (by omega)]
      simp [Outcome.bind, hx, hy, e]

theorem readAt_some {buf : List τ} {p : Nat} (h : p < buf.length) : readAt buf (p : Int) = some buf[p] := by
  simp [readAt, h]

end Pico.Gtest

namespace Pico.Props

open Gtest

variable {τ : Type} {eq : τ → τ → Bool}

/-- C152 (what is checked): `check_space_adaptor` reports nothing, and reads nothing that does not exist, exactly if the
dimension and the number of points are the expected ones and the coordinates of the one point compare equal. -/
theorem c152_check (A : Adaptor τ) (sdim npts idx : Nat) (ref : Nat → Option τ) :
    checkAdaptor eq A sdim npts idx ref = .ok true ↔ A.sdim = sdim ∧ A.size = npts ∧
      ∀ j < sdim, ∃ x y, ref j = some x ∧ A.coord idx j = some y ∧ eq x y = true := by
  rw [← compareN_ok, checkAdaptor]
  cases compareN eq ref (A.coord idx) sdim with
  | ub => simp [Outcome.bind]
  | oof => simp [Outcome.bind]
  | ok b =>
    simp only [Outcome.bind, Outcome.ok.injEq, Bool.and_eq_true, decide_eq_true_eq]
    constructor
    · rintro ⟨⟨h1, h2⟩, h3⟩; exact ⟨h1.symm, h2.symm, h3⟩
    · rintro ⟨h1, h2, h3⟩; exact ⟨⟨h1.symm, h2.symm⟩, h3⟩

/-- Equal numbers compare equal. -/
theorem c152_refl : (∀ x, floatEq x x = true) ∧ ∀ x, doubleEq x x = true := by
  constructor <;> intro x <;> simp [floatEq, doubleEq]

section
variable (hr : ∀ x, eq x x = true)
include hr

/-- C152 (Eigen): the test passes for every matrix that owns its memory and has a point, with either storage order and
whatever the (random) contents are. -/
theorem c152_eigen (buf : List τ) (rows cols : Nat) (rowMajor : Bool) (hb : buf.length = rows * cols)
    (hp : 0 < if rowMajor then rows else cols) : eigenTest eq (.owned buf rows cols rowMajor) = .ok true := by
  have key : ∀ n k j : Nat, 0 < n → j < k → (n - 1) * k + j < n * k := fun n k j hn hj => by
    obtain ⟨m, rfl⟩ : ∃ m, n = m + 1 := ⟨n - 1, by omega⟩
    rw [Nat.add_sub_cancel, Nat.succ_mul]; omega
  cases rowMajor with
  | false =>
    simp only [eigenTest, EMat.owned, Bool.false_eq_true, if_false] at hp ⊢
    rw [c152_check]
    refine ⟨rfl, rfl, fun j hj => ?_⟩
    have hlt : (cols - 1) * rows + j < buf.length := by rw [hb, Nat.mul_comm rows]; exact key _ _ _ hp hj
    have e : ((0 : Int) + ((cols - 1 : Nat) : Int) * (rows : Int) + (j : Int)) = (((cols - 1) * rows + j : Nat) : Int) := by
      push_cast; ring
    have h1 : readAt buf ((0 : Int) + ((cols - 1 : Nat) : Int) * (rows : Int) + (j : Int)) =
        some (buf[(cols - 1) * rows + j]) := by rw [e]; exact readAt_some hlt
    exact ⟨_, _, h1, h1, hr _⟩
  | true =>
    simp only [eigenTest, EMat.owned, if_true] at hp ⊢
    rw [c152_check]
    refine ⟨rfl, rfl, fun j hj => ?_⟩
    have hlt : (rows - 1) * cols + j < buf.length := by rw [hb]; exact key _ _ _ hp hj
    have e : ((0 : Int) + ((rows - 1 : Nat) : Int) * (cols : Int) + (j : Int)) = (((rows - 1) * cols + j : Nat) : Int) := by
      push_cast; ring
    have h1 : readAt buf ((0 : Int) + ((rows - 1 : Nat) : Int) * (cols : Int) + (j : Int)) =
        some (buf[(rows - 1) * cols + j]) := by rw [e]; exact readAt_some hlt
    exact ⟨_, _, h1, h1, hr _⟩

/-- C152 (OpenCV): the test passes for every matrix with rows of `dim` scalars and no gaps between them. -/
theorem c152_opencv (buf : List τ) (rows dim : Nat) (hb : buf.length = rows * dim) (hp : 0 < rows) :
    opencvTest eq dim ⟨buf, 0, rows, dim, dim⟩ = .ok true := by
  rw [opencvTest, c152_check]
  refine ⟨rfl, rfl, fun j hj => ?_⟩
  have hlt : (rows - 1) * dim + j < buf.length := by
    obtain ⟨m, rfl⟩ : ∃ m, rows = m + 1 := ⟨rows - 1, by omega⟩
    rw [hb, Nat.add_sub_cancel, Nat.succ_mul]
    have : j < dim := hj
    omega
  have h1 : readAt buf ((0 : Int) + (((rows - 1) * dim + j : Nat) : Int)) = some (buf[(rows - 1) * dim + j]) := by
    rw [zero_add]; exact readAt_some hlt
  exact ⟨_, _, h1, h1, hr _⟩

/-- C152 (vectors): the test passes for every vector of points that is not empty. -/
theorem c152_vector (dim : Nat) (p : List τ) (ps : List (List τ)) (hp : p.length = dim) :
    vectorTest eq dim (p :: ps) = .ok true := by
  rw [vectorTest, c152_check]
  refine ⟨rfl, rfl, fun j hj => ⟨p[j], p[j], by simp, by simp, hr _⟩⟩

/-- C152 (views): the test passes for every view whose first point is in its memory; whether the dimension is right is not
looked at, since the view itself is asked for it. -/
theorem c152_map (Dim : Option Nat) (m : SpaceMap τ) (hm : ∀ j < m.sdim, (m.coord 0 j).isSome = true) :
    mapTest eq Dim m = .ok true := by
  rw [mapTest, c152_check]
  refine ⟨rfl, rfl, fun j hj => ?_⟩
  obtain ⟨x, hx⟩ := Option.isSome_iff_exists.1 (hm j hj)
  refine ⟨x, x, ?_, hx, hr x⟩
  rw [← hx]
  simp only [MapView.get, SpaceMap.row, MapView.ofSize, SpaceMap.coord, Nat.zero_mul, Nat.zero_add, Nat.cast_zero,
    Int.add_zero]

end

/-- C152 (about the limits): the check looks at one point only. An adaptor that gives that point for every index passes
whenever the right one does, though it is wrong as soon as two points differ. -/
theorem c152_blind_false (A : Adaptor τ) (sdim npts idx : Nat) (ref : Nat → Option τ)
    (h : checkAdaptor eq A sdim npts idx ref = .ok true) :
    checkAdaptor eq ⟨A.sdim, A.size, fun _ => A.coord idx⟩ sdim npts idx ref = .ok true := by
  rw [c152_check] at h ⊢
  exact h

/-- C152 (about the limits): the test of the views passes with two points of two coordinates taken for four of one. -/
theorem c152_self_false : mapTest (fun a b : Nat => a == b) none ⟨[1, 2, 3, 4], 0, 4, 1, true⟩ = .ok true ∧
    mapTest (fun a b : Nat => a == b) none ⟨[1, 2, 3, 4], 0, 2, 2, true⟩ = .ok true := ⟨rfl, rfl⟩

/-! ### Examples -/

/-- The tests as they are: eight points with four floats each. -/
example (buf : List (ieee 23 (-149)).F) (h : buf.length = 32) : eigenTest floatEq (.owned buf 4 8 false) = .ok true ∧
    eigenTest floatEq (.owned buf 4 8 true) = .ok true :=
  ⟨c152_eigen c152_refl.1 buf 4 8 false h (by simp), c152_eigen c152_refl.1 buf 4 8 true h (by simp)⟩

example (buf : List (ieee 23 (-149)).F) (h : buf.length = 24) : opencvTest floatEq 3 ⟨buf, 0, 8, 3, 3⟩ = .ok true :=
  c152_opencv c152_refl.1 buf 8 3 h (by simp)

example : vectorTest floatEq 2 [[lit 1, lit 2], [lit 3, lit 4]] = .ok true := c152_vector c152_refl.1 2 _ _ rfl

/-- A wrong number of points is noticed, a matrix read with the wrong storage order as well. -/
example : checkAdaptor (fun a b : Nat => a == b) ⟨2, 3, fun i j => [1, 2, 3, 4][i * 2 + j]?⟩ 2 2 1 (fun j => [3, 4][j]?) = .ok false ∧
    checkAdaptor (fun a b : Nat => a == b) ⟨2, 2, fun i j => [1, 2, 3, 4][j * 2 + i]?⟩ 2 2 1 (fun j => [3, 4][j]?) = .ok false :=
  ⟨rfl, rfl⟩

end Pico.Props
