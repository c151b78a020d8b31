import Verif.Proof.Python
import Mathlib.Data.Fin.VecNotation
import Mathlib.Algebra.Order.Ring.Int

/-!
# C38, C39, C56, C57: views of arrays
-/

namespace Pico.Props

open Pico Spec

/-! ## C38: which coordinates a view reads -/

section
variable {τ : Type} {a : NArray τ} {Dim : Option Nat}

/-- C38 (acceptance): a view exists exactly for arrays of points whose dimension agrees with the compile
time dimension; every other array raises. -/
theorem c38_accept (hv : Valid a) :
    ((∃ m, makeMap Dim a = .ok m) ↔ ∃ n d, Points a n d ∧ (Dim = none ∨ Dim = some d)) ∧
    ((¬ ∃ n d, Points a n d ∧ (Dim = none ∨ Dim = some d)) → makeMap Dim a = .throws) := by
  have key : (∃ m, makeMap Dim a = .ok m) ∨ makeMap Dim a = .throws := by
    unfold makeMap NArray.innerStride NArray.outerStride
    by_cases hl : a.shape.length = 2
    · obtain ⟨r, c, hsh⟩ := length_two hl
      rw [if_neg (by omega)]
      split
      · exact Or.inr rfl
      · rw [hsh]
        cases a.isC <;> simp only [if_true, Bool.false_eq_true, if_false, List.getElem?_cons_succ,
          List.getElem?_cons_zero] <;> split <;> simp
    · rw [if_pos hl]
      exact Or.inr rfl
  have fwd : ∀ m, makeMap Dim a = .ok m → ∃ n d, Points a n d ∧ (Dim = none ∨ Dim = some d) := by
    intro m hm
    obtain ⟨r, c, hsh, hcf, -, -, -, h1, h2, h3⟩ := makeMap_ok hm
    cases hC : a.isC with
    | true =>
      refine ⟨r, c, Or.inl ⟨hC, hsh⟩, ?_⟩
      cases Dim with
      | none => exact Or.inl rfl
      | some D => exact Or.inr (by rw [← (h1 hC).2, h3 D rfl])
    | false =>
      refine ⟨c, r, Or.inr ⟨hC, by simpa [hC] using hcf, hsh⟩, ?_⟩
      cases Dim with
      | none => exact Or.inl rfl
      | some D => exact Or.inr (by rw [← (h2 hC).2, h3 D rfl])
  refine ⟨⟨fun ⟨m, hm⟩ => fwd m hm, fun ⟨n, d, hp, hD⟩ => ?_⟩, fun hno => ?_⟩
  · obtain ⟨m, hm, -⟩ := makeMap_of_points hv hp hD
    exact ⟨m, hm⟩
  · rcases key with ⟨m, hm⟩ | h
    · exact absurd (fwd m hm) hno
    · exact h

/-- C38 (NumPy): a view of `n` points of dimension `d` has that size and dimension, and coordinate `j` of
point `i` is `a[i, j]` of a C ordered and `a[j, i]` of an F ordered array; it lies inside of the memory. -/
theorem c38_view (hv : Valid a) {n d : Nat} (hp : Points a n d) {m : SpaceMap τ}
    (hm : makeMap Dim a = .ok m) : m.size = n ∧ m.sdim = d ∧ ∀ i < n, ∀ j < d,
      (m.coord i j).isSome = true ∧
      (a.isC = true → m.coord i j = a.get [i, j]) ∧ (a.isC = false → m.coord i j = a.get [j, i]) := by
  obtain ⟨r, c, hsh, -, -, -, -, h1, h2, -⟩ := makeMap_ok hm
  have hs : m.size = n ∧ m.sdim = d := by
    rcases hp with ⟨hC, h⟩ | ⟨hC, -, h⟩
    · obtain ⟨h3, h4⟩ := h1 hC
      rw [hsh] at h
      simp at h
      omega
    · obtain ⟨h3, h4⟩ := h2 hC
      rw [hsh] at h
      simp at h
      omega
  refine ⟨hs.1, hs.2, fun i hi j hj => ?_⟩
  obtain ⟨h3, h4⟩ := makeMap_coord hv hm (i := i) (j := j) (by omega) (by omega)
  exact ⟨h3, fun hC => by rw [h4, if_pos hC], fun hC => by rw [h4, hC]; rfl⟩

/-- C38 (OpenCV; partial: the rows follow each other without gap and a compile time dimension agrees): every
row is one point. -/
theorem c38_mat_partial {m : Mat τ} (hv : ValidMat m) (hs : m.step1 = m.width)
    (hD : Dim = none ∨ Dim = some m.width) :
    (matMap Dim m).size = m.rows ∧ (matMap Dim m).sdim = m.width ∧
      ∀ i < m.rows, ∀ j < m.width, (m.get i j).isSome = true ∧ (matMap Dim m).coord i j = m.get i j := by
  have h : (matMap Dim m).sdim = m.width := by
    rcases hD with rfl | rfl <;> simp [matMap, SpaceMap.mk', hs]
  refine ⟨rfl, h, fun i hi j hj => ⟨hv.2 i hi j hj, ?_⟩⟩
  unfold SpaceMap.coord Mat.get
  rw [h, hs]
  rfl

end

/-- A C ordered array of three points, inside of a larger block. -/
def exC : NArray Int := ⟨.float32, [3, 2], [2, 1], 1, [9, 10, 11, 20, 21, 30, 31, 9], false, false⟩
/-- An F ordered array with two points of dimension three. -/
def exF : NArray Int := ⟨.float64, [3, 2], [1, 3], 0, [10, 11, 12, 20, 21, 22], true, true⟩
/-- `np.array([[1], [2], [3]], order='F')`: one point of dimension three, stored contiguously. -/
def exBoth : NArray Int := ⟨.float64, [3, 1], [1, 3], 0, [1, 2, 3], true, true⟩
/-- The two left columns of a matrix with three columns. -/
def exRoi : Mat Int := ⟨[0, 1, 2, 10, 11, 12], 0, 2, 2, 3⟩

example : Points exC 3 2 ∧ ¬ Points exC 2 3 ∧ Points exF 2 3 := by
  simp only [Points]
  decide

theorem valid_two {τ : Type} {a : NArray τ} {r c : Nat} (hsh : a.shape = [r, c]) (hst : a.strides.length = 2)
    (hin : ∀ i < r, ∀ j < c, (a.get [i, j]).isSome = true)
    (how : a.owns = true → a.base = 0 ∧ a.buf.length = a.shape.prod) : Valid a where
  dims := by rw [hst, hsh]; rfl
  inside idx h := by
    rw [hsh] at h
    obtain ⟨i, j, rfl, hi, hj⟩ := forall₂_two.1 h
    exact hin i hi j hj
  owned := how

example : Valid exC ∧ Valid exF ∧ Valid exBoth :=
  ⟨valid_two rfl rfl (by decide) (by decide), valid_two rfl rfl (by decide) (by decide),
    valid_two rfl rfl (by decide) (by decide)⟩

/-- C38 is false for F ordered arrays with a single column: NumPy marks them as C ordered as well, and the
point of dimension three is read as three points of dimension one. -/
theorem c38_false : exBoth.isF = true ∧ ∃ m, makeMap none exBoth = .ok m ∧ m.size = 3 ∧ m.sdim = 1 :=
  ⟨by decide, _, rfl, rfl, rfl⟩

/-- C38 is false for `cv::Mat` views that are not continuous: the points get additional coordinates from
outside of the view, and with a compile time dimension the rows are not even found. -/
theorem c38_mat_false : ValidMat exRoi ∧ (matMap none exRoi).sdim = 3 ∧ exRoi.width = 2 ∧
    (matMap (some 2) exRoi).coord 1 0 = some 2 ∧ exRoi.get 1 0 = some 10 := by
  refine ⟨⟨by decide, by decide⟩, by decide, rfl, by decide, by decide⟩

/-! ## C38, C39: the distance computed from memory -/

section
variable {α : Type} [Zero α] [Add α] {a b : NArray α} {q s : SpaceMap α} {Dq Ds : Option Nat}

/-- C38 (metric): for equal dimensions the distance that is computed from memory is the sum over the
coordinates of the two points. -/
theorem c38_metric (f : α → α → α) (ha : Valid a) (hb : Valid b) {n m d : Nat} (hpa : Points a n d)
    (hpb : Points b m d) (hq : makeMap Dq a = .ok q) (hs : makeMap Ds b = .ok s) {i j : Nat} (hi : i < n)
    (hj : j < m) {x y : Fin d → α} (hx : IsPoint a i x) (hy : IsPoint b j y) :
    metricMem f q i s j = some (loopSum fun c => f (x c) (y c)) := by
  obtain ⟨hq1, hq2, hq3⟩ := c38_view ha hpa hq
  obtain ⟨hs1, hs2, hs3⟩ := c38_view hb hpb hs
  have gx : ∀ c : Fin d, q.coord i c = some (x c) := fun c => by
    rw [← hx c]
    cases hC : a.isC
    · exact (hq3 i hi c c.2).2.2 hC
    · exact (hq3 i hi c c.2).2.1 hC
  have gy : ∀ c : Fin d, s.coord j c = some (y c) := fun c => by
    rw [← hy c]
    cases hC : b.isC
    · exact (hs3 j hj c c.2).2.2 hC
    · exact (hs3 j hj c c.2).2.1 hC
  unfold metricMem loopSum
  rw [hq2, hs2]
  rw [sumMem_eq f q.buf s.buf _ _ d 0 (fun c => if h : c < d then x ⟨c, h⟩ else 0)
    (fun c => if h : c < d then y ⟨c, h⟩ else 0)
    (fun c hc => by
      rw [dif_pos hc, ← gx ⟨c, hc⟩]
      unfold SpaceMap.coord
      rw [hq2]
      congr 1
      push_cast
      ring)
    (fun c hc => by
      rw [dif_pos hc, ← gy ⟨c, hc⟩]
      unfold SpaceMap.coord
      rw [hs2]
      congr 1
      push_cast
      ring)]
  congr 1
  rw [← foldl_finRange]
  simp

omit [Zero α] [Add α] in
/-- C39 (partial: trees of dimension two and three, whose dimension is a compile time constant): query points
of another dimension raise, whatever the query. -/
theorem c39_partial {τ : Type} {d D n dq : Nat} (hv : Valid a) (hp : Points a n dq) (hd : dq ≠ D)
    (scalarT neighborT : DType) (zero : τ) (search : Pt α d → List τ → Outcome (List τ)) (k : Nat)
    (nns : NArray τ) (rsearch : Pt α d → List τ → List τ) (bsearch : Pt α d → Pt α d → List τ → List τ)
    (nnsT : DType) (cells : List (List τ)) :
    pyKnnInto (some D) scalarT neighborT zero search a k nns = .throws ∧
    pyRadiusInto (some D) scalarT neighborT rsearch a nnsT cells = .throws ∧
    pyBoxInto (some D) scalarT neighborT bsearch a nnsT cells = .throws := by
  have hm : makeMap (some D) a = .throws := by
    refine (c38_accept (Dim := some D) hv).2 ?_
    rintro ⟨n', d', hp', hD | hD⟩
    · cases hD
    · simp only [Option.some.injEq] at hD
      subst hD
      rcases hp with ⟨h1, h2⟩ | ⟨h1, h2, h3⟩ <;> rcases hp' with ⟨g1, g2⟩ | ⟨g1, g2, g3⟩ <;> simp_all
  unfold pyKnnInto pyRadiusInto pyBoxInto
  rw [hm]
  simp only [Call.bind]
  refine ⟨?_, ?_, ?_⟩ <;> (split; rfl; split; rfl; rfl)

/-- C39 is false for all other dimensions: whatever array of points of dimension `D`, not two or three, the
tree was made of, query points of a larger dimension are accepted, and the distance to the last point is
computed from elements behind the end of the array. -/
theorem c39_false {τ : Type} {D dq n m : Nat} (ha : Valid a) (hb : Valid b) (hpa : Points a m dq)
    (hpb : Points b n D) (hn : 0 < n) (how : b.owns = true) (h2 : D ≠ 2) (h3 : D ≠ 3) (hlt : D < dq)
    (f : α → α → α) (neighborT : DType) (zero : τ) (search : Pt α D → List τ → Outcome (List τ))
    (k : Nat) :
    ∃ s q, treeMap b = .ok (none, s) ∧ makeMap none a = .ok q ∧
      pyKnn none a.dtype neighborT zero search a k = .mismatch ∧
      ∀ i, metricMem f q i s (n - 1) = none := by
  obtain ⟨s, hs, hs1, hs2, -, hs3, hs4, -⟩ := makeMap_of_points (Dim := none) hb hpb (Or.inl rfl)
  obtain ⟨q, hq, hq1, hq2, -⟩ := makeMap_of_points (Dim := none) ha hpa (Or.inl rfl)
  have hch : chooseDim b = .ok none := by
    unfold chooseDim NArray.innerStride
    rcases hpb with ⟨h1, h⟩ | ⟨h1, -, h⟩ <;> simp [h1, h, h2, h3]
  obtain ⟨hb0, hbl⟩ := hb.owned how
  have hprod : b.buf.length = n * D := by
    rw [hbl]
    rcases hpb with ⟨-, h⟩ | ⟨-, -, h⟩ <;> simp [h, Nat.mul_comm]
  refine ⟨s, q, ?_, hq, ?_, fun i => ?_⟩
  · unfold treeMap
    rw [hch]
    simp only [Call.bind, hs]
  · unfold pyKnn pyKnnInto
    rw [if_neg (by simp), if_neg (by simp [NArray.default]), hq]
    obtain ⟨nns, he, hw, -⟩ := ensureSize_default zero q.size q.rowMajor k neighborT
    have : q.sdim ≠ D := by omega
    simp [Call.bind, he, hw, this]
  · unfold metricMem
    refine sumMem_none f _ _ _ _ _ _ D (by omega) ?_
    unfold readAt
    rw [hs2, hs3, hs4, hb0, if_pos (by omega)]
    rw [List.getElem?_eq_none_iff, hprod]
    obtain ⟨n, rfl⟩ : ∃ n', n = n' + 1 := ⟨n - 1, by omega⟩
    have : (n + 1) * D = n * D + D := Nat.succ_mul n D
    simp only [Nat.add_sub_cancel]
    omega

/-- A tree of two points on a line, queried with a point of the plane. -/
example : ∃ s q, treeMap (⟨.float32, [2, 1], [1, 1], 0, [5, 7], true, true⟩ : NArray Int) = .ok (none, s) ∧
    makeMap none (⟨.float32, [1, 2], [2, 1], 0, [5, 5], true, true⟩ : NArray Int) = .ok q ∧
    metricMem (fun x y => (x - y) * (x - y)) q 0 s 0 = some 4 ∧
    metricMem (fun x y => (x - y) * (x - y)) q 0 s 1 = none := ⟨_, _, rfl, rfl, rfl, rfl⟩

end

/-! ## C56: the buffer protocol -/

section
variable {τ : Type} {a : NArray τ} {Dim : Option Nat}

/-- C56: the buffer a `KdTree` offers has the shape, the elements and the order of the array it was made of,
it is read-only, and it is the memory of that array, not a copy. -/
theorem c56_request (hv : Valid a) {m : SpaceMap τ} (hm : makeMap Dim a = .ok m) (dtype : DType) :
    (request dtype m).shape = a.shape ∧ (request dtype m).writeable = false ∧
      (request dtype m).dtype = dtype ∧
      (request dtype m).buf = a.buf ∧ (request dtype m).base = a.base ∧ (request dtype m).owns = false ∧
      ∀ idx, InShape a.shape idx → (request dtype m).get idx = a.get idx := by
  obtain ⟨r, c, hsh, hcf, hb, hd, hrm, hC, hF, -⟩ := makeMap_ok hm
  obtain ⟨s0, s1, hst⟩ := length_two (l := a.strides) (by rw [hv.dims, hsh]; rfl)
  cases hc : a.isC with
  | true =>
    obtain ⟨h1, h2⟩ := hC hc
    rw [hc] at hrm
    refine ⟨by simp [request, hrm, h1, h2, hsh], rfl, rfl, hb, hd, rfl, fun idx hi => ?_⟩
    rw [hsh] at hi
    obtain ⟨i, j, rfl, hi, hj⟩ := forall₂_two.1 hi
    unfold NArray.get
    rw [isC_pos hsh hst hc hi hj, pos_two (s0 := m.sdim) (s1 := 1) (by simp [request, hrm])]
    simp only [request, hb, hd, h2]
    congr 1
    push_cast
    ring
  | false =>
    obtain ⟨h1, h2⟩ := hF hc
    rw [hc] at hrm
    have hf : a.isF = true := by simpa [hc] using hcf
    refine ⟨by simp [request, hrm, h1, h2, hsh], rfl, rfl, hb, hd, rfl, fun idx hi => ?_⟩
    rw [hsh] at hi
    obtain ⟨i, j, rfl, hi, hj⟩ := forall₂_two.1 hi
    unfold NArray.get
    rw [isF_pos hsh hst hf hi hj, pos_two (s0 := 1) (s1 := m.sdim) (by simp [request, hrm])]
    simp only [request, hb, hd, h2]
    congr 1
    push_cast
    ring

example : ∃ m, makeMap (some 3) exF = .ok m ∧ (request .float64 m).get [2, 1] = some 22 ∧
    (request .float64 m).strides = [1, 3] := ⟨_, rfl, by decide, by decide⟩

/-! ## C57: constructing a tree from an arbitrary array -/

/-- C57 (partial: at least two dimensions, or one dimension with a stride): the constructor makes a view of
the points with the right dimension or raises. -/
theorem c57_partial (hv : Valid a) (hdim : 2 ≤ a.shape.length ∨ a.shape.length = 1 ∧ a.isC = false) :
    (∀ n d, Points a n d → ∃ Dim m, treeMap a = .ok (Dim, m) ∧ (Dim = none ∨ Dim = some d) ∧
      m.size = n ∧ m.sdim = d) ∧
    ((¬ ∃ n d, Points a n d) → treeMap a = .throws) := by
  constructor
  · intro n d hp
    have hch : ∃ Dim, chooseDim a = .ok Dim ∧ (Dim = none ∨ Dim = some d) := by
      have hin : a.innerStride = some d := by
        unfold NArray.innerStride
        rcases hp with ⟨h1, h⟩ | ⟨h1, -, h⟩ <;> simp [h1, h]
      unfold chooseDim
      rw [hin]
      simp only
      split
      next h => exact ⟨_, rfl, Or.inr (by rw [h])⟩
      · split
        next h => exact ⟨_, rfl, Or.inr (by rw [h])⟩
        · exact ⟨_, rfl, Or.inl rfl⟩
    obtain ⟨Dim, hch, hD⟩ := hch
    obtain ⟨m, hm, h1, h2, -⟩ := makeMap_of_points hv hp hD
    refine ⟨Dim, m, ?_, hD, h1, h2⟩
    unfold treeMap
    rw [hch]
    simp only [Call.bind, hm]
  · intro hno
    have hch : ∃ Dim, chooseDim a = .ok Dim := by
      have hin : ∃ d, a.innerStride = some d := by
        unfold NArray.innerStride
        rcases hdim with h | ⟨h, hC⟩
        · exact ⟨_, List.getElem?_eq_getElem (by split <;> omega)⟩
        · rw [hC]
          exact ⟨_, List.getElem?_eq_getElem (by simp [h])⟩
      obtain ⟨d, hin⟩ := hin
      unfold chooseDim
      rw [hin]
      simp only
      split
      · exact ⟨_, rfl⟩
      · split <;> exact ⟨_, rfl⟩
    obtain ⟨Dim, hch⟩ := hch
    have hm : makeMap Dim a = .throws :=
      (c38_accept (Dim := Dim) hv).2 fun ⟨n, d, hp, _⟩ => hno ⟨n, d, hp⟩
    unfold treeMap
    rw [hch]
    simp only [Call.bind, hm]

/-- C57 is false: for every contiguous array of one dimension, and for every array without dimensions, an
element outside of the shape is read before the number of dimensions is checked. -/
theorem c57_false (h : a.shape.length = 1 ∧ a.isC = true ∨ a.shape.length = 0) : treeMap a = .ub := by
  have hin : a.innerStride = none := by
    unfold NArray.innerStride
    rw [List.getElem?_eq_none_iff]
    rcases h with ⟨h1, h2⟩ | h1
    · simp [h1, h2]
    · omega
  unfold treeMap chooseDim
  rw [hin]
  rfl

example : treeMap (⟨.float32, [3], [1], 0, [1, 2, 3], true, true⟩ : NArray Int) = .ub :=
  c57_false (Or.inl ⟨rfl, rfl⟩)
example : ∃ m, treeMap exC = .ok (some 2, m) := ⟨_, rfl⟩
example : treeMap (⟨.float32, [2], [2], 0, [1, 2, 3], true, false⟩ : NArray Int) = .throws := rfl

end

end Pico.Props
