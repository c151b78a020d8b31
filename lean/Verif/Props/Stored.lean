import Verif.Props.Stream

/-!
# C28: what has to be representable for saving and loading

`c28_built` asks for a scalar encoding that represents every scalar. A tree made with the median or the sliding
midpoint rule only holds coordinates of its points, corners of the start bounds and the limits of the scalar type, so
these are enough.
-/

namespace Pico.Props

open Spec

section
variable {α : Type} [LinearOrder α] [Add α] [Sub α] {d : Nat} {β : Type} {N : Num α} {pts : Nat → Pt α d} {n : Nat}
  {G : α → Prop}

/-- All corners of the box satisfy `G`. -/
def Corners (G : α → Prop) (b : Box α d) : Prop := ∀ j, G (b.min j) ∧ G (b.max j)

theorem corners_inverseMax (hN : G N.low ∧ G N.big) : Corners G (Box.inverseMax N : Box α d) := fun _ => ⟨hN.2, hN.1⟩

theorem corners_fitPt {b : Box α d} (h : Corners G b) {x : Pt α d} (hx : ∀ j, G (x j)) : Corners G (b.fitPt x) := by
  intro j
  unfold Box.fitPt
  refine ⟨?_, ?_⟩
  · show G (if x j < b.min j then x j else b.min j)
    split_ifs
    · exact hx j
    · exact (h j).1
  · show G (if x j > b.max j then x j else b.max j)
    split_ifs
    · exact hx j
    · exact (h j).2

theorem corners_fitBox {b x : Box α d} (h : Corners G b) (hx : Corners G x) : Corners G (b.fitBox x) := by
  intro j
  refine ⟨?_, ?_⟩
  · show G (if x.min j < b.min j then x.min j else b.min j)
    split_ifs
    · exact (hx j).1
    · exact (h j).1
  · show G (if x.max j > b.max j then x.max j else b.max j)
    split_ifs
    · exact (hx j).2
    · exact (h j).2

theorem corners_foldl (l : List Nat) (hl : ∀ i ∈ l, ∀ j, G (pts i j)) {b : Box α d} (h : Corners G b) :
    Corners G (l.foldl (fun b i => b.fitPt (pts i)) b) := by
  induction l generalizing b with
  | nil => exact h
  | cons a l ih =>
    rw [List.foldl_cons]
    exact ih (fun i hi => hl i (List.mem_cons_of_mem _ hi)) (corners_fitPt h (hl a List.mem_cons_self))

/-- Nodes that hold values of `G` only. -/
theorem stored_of_created {C : BuildCfg α d β} {P : Platform α} {branch : Codec β} (hr : C.rule ≠ .midpoint)
    (hN : G C.N.low ∧ G C.N.big) (hp : P.Holds n d)
    (hb : ∀ bl br dim, Corners G bl → Corners G br → branch.Good (C.setBranch bl br dim))
    {depth : Int} {off : Nat} {seg : List Nat} {box : Box α d} {t : Tree β} {seg' : List Nat} {box' : Box α d}
    (h : Created C depth off seg box t seg' box') (hn : off + seg.length ≤ n)
    (hseg : ∀ i ∈ seg, ∀ j, G (C.pts i j)) : t.Fits P branch ∧ Corners G box' := by
  induction h with
  | leaf hl =>
    refine ⟨⟨hp.index _ (by omega), hp.index _ hn⟩, ?_⟩
    unfold leafBox
    split
    · rename_i e; exact absurd e hr
    · exact corners_foldl _ hseg (corners_inverseMax hN)
  | branch hl hs _ _ ih1 ih2 =>
    have h1 := splitter_take_length hs
    have h2 := splitter_drop_length hs
    have h3 := (splitter_ok hs).1
    have h4 := h3.pos_le
    have a := ih1 (by omega) fun i hi => hseg i (h3.perm.mem_iff.1 (List.mem_of_mem_take hi))
    have b := ih2 (by omega) fun i hi => hseg i (h3.perm.mem_iff.1 (List.mem_of_mem_drop hi))
    exact ⟨⟨hb _ _ _ a.2 b.2, a.1, b.1⟩, corners_fitBox a.2 b.2⟩

theorem fits_of_coordinates {tag : SpaceTag α d β} {M : Metric α d} {o : BuildOpts α d} {fuel : Nat}
    {T : KdTree α d β} {P : Platform α} {branch : Codec β} (h : KdTree.make tag M N pts n o fuel = .ok T)
    (hr : o.rule ≠ .midpoint) (hp : P.Holds n d) (hN : P.scalar.Good N.low ∧ P.scalar.Good N.big)
    (hs : ∀ i < n, ∀ j, P.scalar.Good (pts i j))
    (hg : ∀ mn mx, o.bounds = .given mn mx → ∀ j, P.scalar.Good (mn j) ∧ P.scalar.Good (mx j))
    (hb : ∀ bl br dim, Corners P.scalar.Good bl → Corners P.scalar.Good br → branch.Good (tag.setBranch bl br dim)) :
    T.data.Fits P branch := by
  obtain ⟨box, hc⟩ := created_of_make h
  have hperm := (c16_partition h).1
  have hroot : Corners P.scalar.Good T.data.rootBox := by
    obtain ⟨-, -, -, -, -, hb⟩ := KdTree.make_ok h
    have e : T.data.rootBox = boxFromBounds N pts n o.bounds := by
      unfold buildTree at hb
      cases hc : createNode (KdTree.cfg tag N pts o) fuel 0 0 (List.range n)
          (boxFromBounds (KdTree.cfg tag N pts o).N (KdTree.cfg tag N pts o).pts n o.bounds) with
      | ub => simp [hc, Outcome.bind] at hb
      | oof => simp [hc, Outcome.bind] at hb
      | ok r =>
        simp only [hc, Outcome.bind, Outcome.ok.injEq] at hb
        rw [← hb]
        rfl
    rw [e]
    cases eb : o.bounds with
    | fromSpace => exact corners_foldl _ (fun i hi => hs i (List.mem_range.1 hi)) (corners_inverseMax hN)
    | given mn mx =>
      exact corners_fitPt (corners_fitPt (corners_inverseMax hN) fun j => (hg mn mx eb j).1) fun j => (hg mn mx eb j).2
  refine ⟨hp.dim, ?_, ?_, fun j => (hroot j).1, fun j => (hroot j).2, ?_, hp.bool⟩
  · rw [hperm.length_eq, List.length_range]
    exact hp.length
  · intro i hi
    exact hp.index i (List.mem_range.1 (hperm.mem_iff.1 hi)).le
  · exact (stored_of_created hr hN hp hb hc (by simp) fun i hi => hs i (List.mem_range.1 hi)).1

end

section
variable {α : Type} [LinearOrder α] [Zero α] [One α] [Add α] [Sub α] [Neg α] {d : Nat}
  {M : Metric α d} {N : Num α} {pts : Nat → Pt α d} {n : Nat} {o : BuildOpts α d} {fuel : Nat}

/-- C28 for Euclidean trees made with the median or sliding midpoint rule: only the coordinates of the points, the corners
of given start bounds and the limits of the scalar type need an encoding. -/
theorem c28_coordinates {T : KdTree α d (Branch1 α d)}
    (h : KdTree.make (euclideanTag α d) M N pts n o fuel = .ok T) (hr : o.rule ≠ .midpoint) {P : Platform α}
    (hp : P.Holds n d) (hN : P.scalar.Good N.low ∧ P.scalar.Good N.big) (hs : ∀ i < n, ∀ j, P.scalar.Good (pts i j))
    (hg : ∀ mn mx, o.bounds = .given mn mx → ∀ j, P.scalar.Good (mn j) ∧ P.scalar.Good (mx j))
    (pad : Nat → Byte) (out : List Byte) :
    ∃ body, T.save pad P (P.branch1 d) out = out ++ body ∧
      ∀ rest fuel, (body ++ rest).length < fuel →
        KdTree.load P (P.branch1 d) (euclideanTag α d) M N pts n fuel (body ++ rest) = .ok T rest := by
  have hf : T.data.Fits P (P.branch1 d) := fits_of_coordinates h hr hp hN hs hg fun bl br dim h1 h2 =>
    good_branch1 (hp.splitDim _ dim.isLt) (h1 dim).2 (h2 dim).1
  obtain ⟨h1, h2, h3, h4, h5⟩ := make_fields h
  have := c28_roundtrip T hf hp.flag pad out
  rwa [h1, h2, h3, h4, h5] at this

/-- The same for topological trees. -/
theorem c28_coordinates_topological {T : KdTree α d (Branch2 α d)}
    (h : KdTree.make (topologicalTag α d) M N pts n o fuel = .ok T) (hr : o.rule ≠ .midpoint) {P : Platform α}
    (hp : P.Holds n d) (hN : P.scalar.Good N.low ∧ P.scalar.Good N.big) (hs : ∀ i < n, ∀ j, P.scalar.Good (pts i j))
    (hg : ∀ mn mx, o.bounds = .given mn mx → ∀ j, P.scalar.Good (mn j) ∧ P.scalar.Good (mx j))
    (pad : Nat → Byte) (out : List Byte) :
    ∃ body, T.save pad P (P.branch2 d) out = out ++ body ∧
      ∀ rest fuel, (body ++ rest).length < fuel →
        KdTree.load P (P.branch2 d) (topologicalTag α d) M N pts n fuel (body ++ rest) = .ok T rest := by
  have hf : T.data.Fits P (P.branch2 d) := fits_of_coordinates h hr hp hN hs hg fun bl br dim h1 h2 =>
    good_branch2 (hp.splitDim _ dim.isLt) (h1 dim).1 (h1 dim).2 (h2 dim).1 (h2 dim).2
  obtain ⟨h1, h2, h3, h4, h5⟩ := make_fields h
  have := c28_roundtrip T hf hp.flag pad out
  rwa [h1, h2, h3, h4, h5] at this

end

/-- Integers from -128 to 127 in one byte. -/
def int8 : Codec Int := (Codec.unsigned 1).view (fun x => (x + 128).toNat) fun n => some (n - 128)

theorem good_int8 {x : Int} (h1 : -128 ≤ x) (h2 : x ≤ 127) : int8.Good x :=
  good_view (good_unsigned (by omega)) (by simp; omega)

/-- The hypotheses hold for integers in one byte, although this does not represent every integer. -/
example : ∃ T, KdTree.make (euclideanTag Int 1) (metricL1 Int 1) ⟨-128, 127, fun x => x / 2, fun x => x / 2⟩
    (fun i _ => (i : Int) * 7 % 5) 5 (Ref.optsSliding Int 1) 10 = .ok T ∧ (ranges T.data.root).length = 5 ∧
    (Platform.le64 int8).Holds 5 1 ∧ (∀ i < 5, int8.Good ((i : Nat) * 7 % 5 : Int)) ∧
    (int8.Good (-128) ∧ int8.Good 127) ∧ ¬ ∀ v, int8.Good v := by
  obtain ⟨T, hT, hp⟩ := Outcome.exists_of_check
    (x := KdTree.make (euclideanTag Int 1) (metricL1 Int 1) ⟨-128, 127, fun x => x / 2, fun x => x / 2⟩
      (fun i _ => (i : Int) * 7 % 5) 5 (Ref.optsSliding Int 1) 10)
    (p := fun T => decide ((ranges T.data.root).length = 5)) (by decide +kernel)
  refine ⟨T, hT, by simpa using hp, holds_le64 _ (by omega) (by omega), fun i _ => good_int8 (by omega) (by omega),
    ⟨good_int8 (by omega) (by omega), good_int8 (by omega) (by omega)⟩, fun h => ?_⟩
  have := (h 1000 fun _ => 0).2
  revert this
  decide

end Pico.Props
