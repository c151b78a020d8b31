import Verif.Model.Eigen
import Verif.Ref
import Mathlib.Tactic.Linarith
import Mathlib.Tactic.Ring
import Mathlib.Data.List.Nodup

/-!
# C87: Eigen matrices and vectors
-/

namespace Pico.Props

open Pico

/-- All elements of the matrix lie in its memory. -/
def ValidEMat {τ : Type} (m : EMat τ) : Prop := ∀ r < m.rows, ∀ c < m.cols, (m.get r c).isSome = true

/-- Coordinate `j` of point `i` as documented: a point is a column of a column major matrix and a row of a row
major matrix. -/
def eigenSpec {τ : Type} (m : EMat τ) (i j : Nat) : Option τ := if m.rowMajor then m.get i j else m.get j i

section
variable {τ : Type}

theorem coord_eq (m : EMat τ) (i j : Nat) : m.coord i j = readAt m.buf (m.base + i * m.outer + j) := by
  unfold EMat.coord EVec.coord EMat.pointAt EMat.row EMat.col EMat.rowStride EMat.colStride
  cases m.rowMajor <;> rfl

theorem spec_eq (m : EMat τ) (i j : Nat) :
    eigenSpec m i j = readAt m.buf (m.base + i * m.outer + j * m.inner) := by
  unfold eigenSpec EMat.get EMat.rowStride EMat.colStride
  cases m.rowMajor
  · simp only [Bool.false_eq_true, if_false]
    congr 1
    omega
  · simp only [if_true]
    congr 1
    omega

/-- C87 for spaces (partial: the inner stride is one): as many points as columns (rows), and the coordinates the
tree reads are those of the matrix, inside of its memory. -/
theorem c87_space_partial {m : EMat τ} (hv : ValidEMat m) (h : m.inner = 1) :
    (m.rowMajor = false → m.size = m.cols ∧ m.sdim = m.rows) ∧
    (m.rowMajor = true → m.size = m.rows ∧ m.sdim = m.cols) ∧
    ∀ i < m.size, (m.pointAt i).sdim = m.sdim ∧
      ∀ j < m.sdim, (m.coord i j).isSome = true ∧ m.coord i j = eigenSpec m i j := by
  refine ⟨fun e => by simp [EMat.size, EMat.sdim, e], fun e => by simp [EMat.size, EMat.sdim, e], ?_⟩
  intro i hi
  constructor
  · unfold EVec.sdim EMat.pointAt EMat.sdim EMat.row EMat.col
    cases m.rowMajor <;> rfl
  intro j hj
  have e : m.coord i j = eigenSpec m i j := by rw [coord_eq, spec_eq, h, mul_one]
  refine ⟨?_, e⟩
  rw [e]
  unfold eigenSpec
  unfold EMat.size at hi
  unfold EMat.sdim at hj
  cases hr : m.rowMajor
  · rw [hr] at hi hj
    exact hv j (by simpa using hj) i (by simpa using hi)
  · rw [hr] at hi hj
    exact hv i (by simpa using hi) j (by simpa using hj)

/-- C87 for matrices that own their memory: complete. -/
theorem c87_owned (buf : List τ) (rows cols : Nat) (rowMajor : Bool) (hb : buf.length = rows * cols) :
    ValidEMat (EMat.owned buf rows cols rowMajor) ∧
    ∀ i < (EMat.owned buf rows cols rowMajor).size, ∀ j < (EMat.owned buf rows cols rowMajor).sdim,
      (EMat.owned buf rows cols rowMajor).coord i j = eigenSpec (EMat.owned buf rows cols rowMajor) i j ∧
      (EMat.owned buf rows cols rowMajor).coord i j =
        buf[i * (EMat.owned buf rows cols rowMajor).sdim + j]? := by
  have hv : ValidEMat (EMat.owned buf rows cols rowMajor) := by
    intro r hr c hc
    have hr : r < rows := hr
    have hc : c < cols := hc
    have key : ∀ x : Nat, x < rows * cols → (readAt buf (x : Int)).isSome = true := by
      intro x hx
      unfold readAt
      rw [if_pos (Int.natCast_nonneg x), Int.toNat_natCast, List.getElem?_eq_getElem (by omega)]
      rfl
    unfold EMat.get EMat.owned EMat.rowStride EMat.colStride
    cases rowMajor
    · have : ((0 : Int) + ((r : Int) * 1 + (c : Int) * (rows : Int))) = ((r + c * rows : Nat) : Int) := by
        push_cast; ring
      simp only [Bool.false_eq_true, if_false]
      rw [this]
      apply key
      calc r + c * rows < rows + c * rows := by omega
        _ = (c + 1) * rows := by ring
        _ ≤ cols * rows := Nat.mul_le_mul_right _ hc
        _ = rows * cols := Nat.mul_comm _ _
    · have : ((0 : Int) + ((r : Int) * (cols : Int) + (c : Int) * 1)) = ((r * cols + c : Nat) : Int) := by
        push_cast; ring
      simp only [if_true]
      rw [this]
      apply key
      calc r * cols + c < r * cols + cols := by omega
        _ = (r + 1) * cols := by ring
        _ ≤ rows * cols := Nat.mul_le_mul_right _ hr
  refine ⟨hv, fun i hi j hj => ?_⟩
  have h1 := ((c87_space_partial hv rfl).2.2 i hi).2 j hj
  refine ⟨h1.2, ?_⟩
  rw [coord_eq]
  unfold EMat.owned EMat.sdim readAt
  have : ((0 : Int) + (i : Int) * ((if rowMajor then cols else rows : Nat) : Int) + (j : Int)) =
      ((i * (if rowMajor then cols else rows) + j : Nat) : Int) := by push_cast; ring
  have e : (0 : Int) + (i : Int) * (if rowMajor = true then (cols : Int) else (rows : Int)) + (j : Int) =
      ((i * (if rowMajor then cols else rows) + j : Nat) : Int) := by
    cases rowMajor <;> simp
  simp only []
  rw [e, if_pos (Int.natCast_nonneg _), Int.toNat_natCast]

/-- C87 for points (partial: the elements of the vector are neighbors in memory). -/
theorem c87_point_partial (v : EVec τ) (h : v.stride = 1 ∨ v.size ≤ 1) :
    v.sdim = v.size ∧ ∀ j < v.size, v.coord j = v.get j := by
  refine ⟨rfl, fun j hj => ?_⟩
  unfold EVec.coord EVec.get
  rcases h with h | h
  · rw [h, mul_one]
  · have : j = 0 := by omega
    subst this
    simp

/-- Columns of column major and rows of row major matrices without inner stride may be used as points. -/
theorem c87_block_partial {m : EMat τ} (h : m.inner = 1) :
    (m.rowMajor = false → ∀ c, ∀ r < m.rows, (m.col c).coord r = m.get r c) ∧
    (m.rowMajor = true → ∀ r, ∀ c < m.cols, (m.row r).coord c = m.get r c) := by
  constructor
  · intro e c r _
    unfold EVec.coord EMat.col EMat.get EMat.rowStride EMat.colStride
    simp only [e, Bool.false_eq_true, if_false, h]
    congr 1
    omega
  · intro e r c _
    unfold EVec.coord EMat.row EMat.get EMat.rowStride EMat.colStride
    simp only [e, if_true, h]
    congr 1
    omega

theorem readAt_inj {l : List τ} (hl : l.Nodup) {p p' : Int} {x : τ} (h : readAt l p = some x)
    (h' : readAt l p' = some x) : p = p' := by
  unfold readAt at h h'
  split at h <;> [skip; exact absurd h (by simp)]
  split at h' <;> [skip; exact absurd h' (by simp)]
  obtain ⟨h1, h2⟩ := List.getElem?_eq_some_iff.1 h
  obtain ⟨h3, h4⟩ := List.getElem?_eq_some_iff.1 h'
  have := (List.Nodup.getElem_inj_iff hl).1 (h2.trans h4.symm)
  omega

/-- C87 is false for every vector with gaps: if the memory holds different numbers, the second coordinate is
wrong (or outside of the memory). -/
theorem c87_point_false (v : EVec τ) (hn : v.buf.Nodup) (hv : ∀ j < v.size, (v.get j).isSome = true)
    (h2 : 2 ≤ v.size) (h : v.stride ≠ 1) : v.coord 1 ≠ v.get 1 := by
  intro e
  obtain ⟨x, hx⟩ := Option.isSome_iff_exists.1 (hv 1 (by omega))
  rw [hx] at e
  have := readAt_inj hn e hx
  apply h
  have h1 : ((1 : Nat) : Int) = 1 := rfl
  rw [h1, one_mul] at this
  linarith

/-- A column of a row major matrix passes the static assertions of `eigen_vector_dim` and is read wrongly. -/
theorem c87_block_false {m : EMat τ} (hn : m.buf.Nodup) (hv : ValidEMat m) (hr : m.rowMajor = true)
    (h2 : 2 ≤ m.rows) (ho : m.outer ≠ 1) (c : Nat) (hc : c < m.cols) : (m.col c).coord 1 ≠ m.get 1 c := by
  have hg : ∀ r, (m.col c).get r = m.get r c := by
    intro r
    unfold EVec.get EMat.col EMat.get
    simp only []
    congr 1
    omega
  rw [← hg]
  apply c87_point_false (m.col c) hn
  · intro j hj
    rw [hg]
    exact hv j hj c hc
  · exact h2
  · simp [EMat.col, EMat.rowStride, hr, ho]

end

/-- Two points with a gap behind every coordinate. -/
def exStrided : EMat Int := ⟨[0, 100, 0, 100, 60, 0, 60, 0], 0, 2, 2, false, 2, 4⟩

/-- The points of a matrix of integers as the tree sees them. -/
def eigenPts (m : EMat Int) (i : Nat) : Pt Int 2 := fun j => (m.coord i j).getD 0

/-- C87 violation for spaces: `Eigen::Map<MatrixXi, 0, Stride<Dynamic, Dynamic>>` with inner stride two. The
points are (0, 0) and (60, 60); the search for the point nearest to (0, 0) returns the other one with distance
60, because the tree reads (0, 100) and (60, 0). -/
theorem c87_space_false : ValidEMat exStrided ∧ exStrided.size = 2 ∧ exStrided.sdim = 2 ∧
    (∀ j < 2, eigenSpec exStrided 0 j = some 0) ∧ (∀ j < 2, eigenSpec exStrided 1 j = some 60) ∧
    ∃ T, KdTree.make (euclideanTag Int 2) (metricL1 Int 2) Ref.intNum (eigenPts exStrided)
      exStrided.size (Ref.optsSliding Int 2) 10 = .ok T ∧ T.searchNn ![0, 0] ⟨0, 0⟩ = ⟨1, 60⟩ := by
  refine ⟨by unfold ValidEMat; decide +kernel, by decide, by decide, by decide, by decide, ?_⟩
  obtain ⟨T, h1, h2⟩ := Outcome.exists_of_check (x := KdTree.make (euclideanTag Int 2) (metricL1 Int 2) Ref.intNum
    (eigenPts exStrided) exStrided.size (Ref.optsSliding Int 2) 10)
    (p := fun T => decide (T.searchNn ![0, 0] ⟨0, 0⟩ = ⟨1, 60⟩)) (by decide +kernel)
  exact ⟨T, h1, of_decide_eq_true h2⟩

/-- Three points of dimension two, column major. -/
example : ValidEMat (EMat.owned [1, 2, 3, 4, 5, 6] 2 3 false) ∧
    (EMat.owned [1, 2, 3, 4, 5, 6] 2 3 false).size = 3 ∧
    (EMat.owned [1, 2, 3, 4, 5, 6] 2 3 false).coord 1 0 = some 3 := by
  refine ⟨(c87_owned _ 2 3 false rfl).1, ?_⟩
  decide +kernel

/-- A map of every second row of a row major matrix (outer stride four, inner stride one). -/
example : let m : EMat Nat := ⟨[1, 2, 9, 9, 3, 4, 9, 9], 0, 2, 2, true, 1, 4⟩
    ValidEMat m ∧ m.inner = 1 ∧ m.coord 1 1 = some 4 ∧ (m.col 0).coord 1 = some 2 ∧ m.get 1 0 = some 3 := by
  refine ⟨by unfold ValidEMat; decide +kernel, ?_⟩
  decide +kernel

/-- The hypotheses of the negations. -/
example : let m : EMat Nat := EMat.owned [1, 2, 3, 4] 2 2 true
    m.buf.Nodup ∧ ValidEMat m ∧ 2 ≤ m.rows ∧ m.outer ≠ 1 ∧ (m.col 0).stride = 2 := by
  refine ⟨by decide, by unfold ValidEMat; decide +kernel, ?_⟩
  decide +kernel

end Pico.Props
