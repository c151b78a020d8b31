import Verif.Model.View
import Mathlib.Tactic.Linarith
import Mathlib.Tactic.Ring

/-!
# C125: a view gives exactly the points it was made from
-/

namespace Pico.Props

section
variable {τ : Type}

/-! ## Specification -/

/-- The view `v` is the list `xs`: as many elements, and every one of them is read from the memory. -/
def IsView (v : MapView τ) (xs : List τ) : Prop :=
  v.size = xs.length ∧ ∀ i < xs.length, v.get i = xs[i]?

/-- The memory `buf` has `xs` at position `data`. -/
def HoldsAt (buf : List τ) (data : Int) (xs : List τ) : Prop :=
  ∃ pre post, buf = pre ++ xs ++ post ∧ data = pre.length

/-- `xs` has the size that is known at compile time, if one is. -/
def Fits (Ext : Option Nat) (xs : List τ) : Prop := ∀ n ∈ Ext, xs.length = n

theorem readAt_holds {buf xs : List τ} {data : Int} (h : HoldsAt buf data xs) {i : Nat} (hi : i < xs.length) :
    readAt buf (data + i) = xs[i]? := by
  obtain ⟨pre, post, rfl, rfl⟩ := h
  unfold readAt
  rw [if_pos (by omega), show ((pre.length : Int) + i).toNat = pre.length + i by omega, List.append_assoc,
    List.getElem?_append_right (by omega), Nat.add_sub_cancel_left, List.getElem?_append_left hi]

/-! ## Points -/

/-- C125: a point map made from a pointer and a size is the scalars behind the pointer.  The size has to be the
number of them, also when it is known at compile time. -/
theorem c125_point_partial {Ext : Option Nat} {buf xs : List τ} {data : Int} (h : HoldsAt buf data xs)
    (hs : Fits Ext xs) : IsView (MapView.ofSize Ext buf data xs.length) xs := by
  refine ⟨?_, fun i hi => readAt_holds h hi⟩
  cases Ext with
  | none => rfl
  | some n => exact (hs n rfl).symm

/-- C125: a point map made from the pointer only needs a size that is known at compile time. -/
theorem c125_pointer_partial {n : Nat} {buf xs : List τ} {data : Int} (h : HoldsAt buf data xs)
    (hs : xs.length = n) : IsView (MapView.ofData (some n) buf data) xs :=
  ⟨hs.symm, fun _ hi => readAt_holds h hi⟩

/-- C125: a point map made from two iterators is the scalars between them, unless there are none. -/
theorem c125_range_partial {Ext : Option Nat} {pre xs post : List τ} (hx : xs ≠ []) (hs : Fits Ext xs)
    (h64 : xs.length < 2 ^ 64) :
    ∃ v, MapView.ofRange Ext (pre ++ xs ++ post) pre.length (pre.length + xs.length) = .ok v ∧ IsView v xs := by
  have hl : 0 < xs.length := List.length_pos_iff.2 hx
  have hg : (pre ++ xs ++ post)[pre.length]? = some xs[0] := by
    rw [List.append_assoc, List.getElem?_append_right (Nat.le_refl _), Nat.sub_self, List.getElem?_append_left hl,
      List.getElem?_eq_getElem hl]
  have hd : ((((pre.length + xs.length : Nat) : Int) - (pre.length : Nat)) % (2 ^ 64 : Int)).toNat = xs.length := by
    rw [show (((pre.length + xs.length : Nat) : Int) - (pre.length : Nat)) = (xs.length : Int) by push_cast; ring,
      Int.emod_eq_of_lt (by omega) (by exact_mod_cast h64), Int.toNat_natCast]
  unfold MapView.ofRange
  rw [hg]
  refine ⟨_, rfl, ?_, fun i hi => readAt_holds ⟨pre, post, rfl, rfl⟩ hi⟩
  show Ext.getD _ = _
  cases Ext with
  | none => exact hd
  | some n => exact (hs n rfl).symm

/-- C125 is false for a point map made from two iterators of an empty container: the end is dereferenced. -/
theorem c125_range_false (Ext : Option Nat) (buf : List τ) :
    MapView.ofRange Ext buf buf.length buf.length = .ub := by
  unfold MapView.ofRange
  rw [List.getElem?_eq_none (Nat.le_refl _)]

/-- C125 is false when the size is known at compile time: another size is neither rejected nor used, and what lies
behind the scalars is read. -/
theorem c125_static_false {n : Nat} {pre xs : List τ} (h : xs.length < n) :
    xs.length < (MapView.ofSize (some n) (pre ++ xs) pre.length xs.length).size ∧
      (MapView.ofSize (some n) (pre ++ xs) pre.length xs.length).get xs.length = none := by
  refine ⟨h, ?_⟩
  show readAt (pre ++ xs) (((pre.length : Nat) : Int) + ((xs.length : Nat) : Int)) = none
  unfold readAt
  rw [if_pos (by omega), List.getElem?_eq_none (by rw [List.length_append]; omega)]

/-- C125 is false for a point map of unknown dimension that is made from the pointer only: its size is the largest
`size_t`, whatever the memory is. -/
theorem c125_pointer_false {buf xs : List τ} {data : Int} (h64 : buf.length < 2 ^ 64 - 1) (h : HoldsAt buf data xs) :
    ¬ IsView (MapView.ofData none buf data) xs := by
  rintro ⟨h1, -⟩
  obtain ⟨pre, post, rfl, -⟩ := h
  have h2 : xs.length = 2 ^ 64 - 1 := h1.symm
  rw [List.length_append, List.length_append, h2] at h64
  omega

/-! ## Spaces -/

/-- The space view `m` is the list of points `pts` of dimension `d`: every row is a view of its point. -/
def IsSpace (Dim : Option Nat) (m : SpaceMap τ) (d : Nat) (pts : List (List τ)) : Prop :=
  m.size = pts.length ∧ m.sdim = d ∧ ∀ i p, pts[i]? = some p → IsView (m.row Dim i) p

theorem flatten_split {d : Nat} : ∀ {pts : List (List τ)} (_ : ∀ p ∈ pts, p.length = d) {i : Nat} {p : List τ}
    (_ : pts[i]? = some p), ∃ a b, pts.flatten = a ++ p ++ b ∧ a.length = i * d
  | [], _, _, _, h => by simp at h
  | q :: rest, hd, 0, p, h => by
    simp at h
    exact ⟨[], rest.flatten, by simp [h], by simp⟩
  | q :: rest, hd, i + 1, p, h => by
    obtain ⟨a, b, h1, h2⟩ := flatten_split (fun x hx => hd x (List.mem_cons_of_mem _ hx))
      (show rest[i]? = some p by simpa using h)
    refine ⟨q ++ a, b, by simp [h1], ?_⟩
    rw [List.length_append, h2, hd q List.mem_cons_self]
    ring

theorem isSpace_of {Dim : Option Nat} {buf : List τ} {data : Int} {pts : List (List τ)} {d : Nat} {m : SpaceMap τ}
    (h : HoldsAt buf data pts.flatten) (hd : ∀ p ∈ pts, p.length = d) (hD : ∀ n ∈ Dim, d = n) (hb : m.buf = buf)
    (hdata : m.data = data) (hsize : m.size = pts.length) (hsd : m.sdim = d) : IsSpace Dim m d pts := by
  refine ⟨hsize, hsd, fun i p hp => ?_⟩
  have hl : p.length = d := hd p (List.mem_of_getElem? hp)
  obtain ⟨a, b, h1, h2⟩ := flatten_split hd hp
  obtain ⟨pre, post, rfl, rfl⟩ := h
  unfold SpaceMap.row
  rw [hb, hdata, hsd, show d = p.length from hl.symm]
  refine c125_point_partial ⟨pre ++ a, b ++ post, by simp [h1], ?_⟩ fun n hn => hl.trans (hD n hn)
  rw [List.length_append, h2, hl]
  push_cast
  ring

/-- C125: a space map made from a pointer, the number of the points and their dimension is the points behind the
pointer, one after the other.  The dimension has to be the one known at compile time, if one is. -/
theorem c125_space_partial {Dim : Option Nat} {buf : List τ} {data : Int} {pts : List (List τ)} {d : Nat}
    (h : HoldsAt buf data pts.flatten) (hd : ∀ p ∈ pts, p.length = d) (hD : ∀ n ∈ Dim, d = n) :
    IsSpace Dim (SpaceMap.mk' Dim buf data pts.length d true) d pts := by
  refine isSpace_of h hd hD rfl rfl rfl ?_
  cases Dim with
  | none => rfl
  | some n => exact (hD n rfl).symm

/-- C125: with a dimension known at compile time the number of the points is enough. -/
theorem c125_space_static_partial {buf : List τ} {data : Int} {pts : List (List τ)} {d : Nat}
    (h : HoldsAt buf data pts.flatten) (hd : ∀ p ∈ pts, p.length = d) :
    IsSpace (some d) (SpaceMap.ofSize (some d) buf data pts.length) d pts :=
  isSpace_of h hd (fun n hn => by simpa using hn) rfl rfl rfl rfl

/-- C125: a space map of points whose type has a fixed dimension is the points behind the pointer. -/
theorem c125_points {buf pts : List τ} {data : Int} (h : HoldsAt buf data pts) :
    IsView (pointsMap buf data pts.length) pts :=
  c125_point_partial h fun n hn => by simp at hn

/-- C125 is false for a space map of unknown dimension that is made without the dimension: the dimension becomes the
largest `size_t`, and the second point is outside of every memory. -/
theorem c125_space_false {buf : List τ} {data : Int} {n : Nat} (hdata : 0 ≤ data)
    (h64 : buf.length < 2 ^ 64 - 1) : (SpaceMap.ofSize none buf data n).sdim = 2 ^ 64 - 1 ∧
      ∀ j, ((SpaceMap.ofSize none buf data n).row none 1).get j = none := by
  refine ⟨rfl, fun j => ?_⟩
  show readAt buf (data + ((1 * (2 ^ 64 - 1) : Nat) : Int) + j) = none
  unfold readAt
  rw [if_pos (by omega), List.getElem?_eq_none (by omega)]

/-- C125: reading the coordinate directly and through the point is the same (`SpaceMap.coord` of C38 and the rows here
agree). -/
theorem c125_coord (Dim : Option Nat) (m : SpaceMap τ) (i j : Nat) : (m.row Dim i).get j = m.coord i j := by
  show readAt m.buf (m.data + ((i * m.sdim : Nat) : Int) + j) = readAt m.buf _
  rw [Nat.cast_add, ← add_assoc]

/-! ## The type of a matrix -/

/-- C125: a `cv::Mat` whose scalars have `elem` bytes is read at the right places (row `i` starts `i * step1 * elem`
bytes behind the first) exactly if the scalar type of the view has as many bytes.  Nothing checks it. -/
theorem c125_mat {scalar elem step1 rows : Nat} (hr : 2 ≤ rows) (hs : 0 < step1) :
    (∀ i < rows, ∀ j < step1, matByte scalar step1 i j = i * (step1 * elem) + j * elem) ↔ scalar = elem := by
  constructor
  · intro h
    have h1 := h 1 (by omega) 0 hs
    unfold matByte at h1
    have h2 : step1 * scalar = step1 * elem := by linarith
    exact Nat.eq_of_mul_eq_mul_left hs h2
  · rintro rfl i - j -
    unfold matByte
    ring

/-- C125 is false for a matrix of `double` that is viewed as `float`: the second point starts in the middle of the
first row. -/
theorem c125_mat_false : matByte 4 4 1 0 = 16 ∧ 1 * (4 * 8) + 0 * 8 = 32 := by decide

end

/-! ## The unit tests: point_map_test.cpp, space_map_test.cpp, space_map_traits_test.cpp -/

/-- `PointMapTest` for all three types. -/
example : IsView (MapView.ofSize (some 2) [0, 1] 0 2) [0, 1] ∧ IsView (MapView.ofSize (some 3) [0, 1, 2] 0 3) [0, 1, 2] ∧
    IsView (MapView.ofSize none [0, 1, 2, 3] 0 4) [0, 1, 2, 3] :=
  ⟨⟨rfl, by decide⟩, ⟨rfl, by decide⟩, ⟨rfl, by decide⟩⟩

/-- `SpaceMapTest` for points. -/
example : IsView (pointsMap [#v[0, 1, 2], #v[3, 4, 5]] 0 2) [#v[0, 1, 2], #v[3, 4, 5]] :=
  c125_points (pts := [#v[0, 1, 2], #v[3, 4, 5]]) ⟨[], [], rfl, rfl⟩

/-- `SpaceMapTest` for scalars with a dimension known at run time. -/
example : IsSpace none (SpaceMap.mk' none [0, 1, 2, 3, 4, 5, 6, 7] 0 2 4 true) 4 [[0, 1, 2, 3], [4, 5, 6, 7]] :=
  c125_space_partial (pts := [[0, 1, 2, 3], [4, 5, 6, 7]]) ⟨[], [], rfl, rfl⟩ (by decide) (by simp)

/-- `SpaceMapTraitsTest.PointMap`, `map_ct`; the memory goes on before and behind it. -/
example : IsSpace (some 2) (SpaceMap.ofSize (some 2) [9, 1, 2, 3, 4, 8] 1 2) 2 [[1, 2], [3, 4]] :=
  c125_space_static_partial (pts := [[1, 2], [3, 4]]) ⟨[9], [8], rfl, rfl⟩ (by decide)

/-- Two iterators. -/
example : ∃ v, MapView.ofRange none [7, 1, 2, 3] 1 4 = .ok v ∧ IsView v [1, 2, 3] :=
  c125_range_partial (pre := [7]) (xs := [1, 2, 3]) (post := []) (by simp) (by intro n hn; simp at hn) (by decide)

/-- A size known at compile time that the memory does not have. -/
example : 2 < (MapView.ofSize (some 3) [7, 1, 2] 1 2).size ∧ (MapView.ofSize (some 3) [7, 1, 2] 1 2).get 2 = none :=
  c125_static_false (pre := [7]) (xs := [1, 2]) (by decide)

end Pico.Props
