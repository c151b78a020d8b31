import Verif.Props.PyTree
import Verif.Proof.Faulty

/-!
# C120: files of another scalar type

`load_kd_tree` takes the scalar type from the array. The file does not say with which scalar type it was written.
-/

set_option linter.unusedSectionVars false

namespace Pico.Props

open Pico Spec Pico.Bind

section
variable {α τ σ : Type}

theorem load_bind_ne_throws {x : Load σ} {f : σ → List Byte → Load τ} (hx : x ≠ .throws)
    (hf : ∀ v s, f v s ≠ .throws) : x.bind f ≠ .throws := by
  cases x with
  | ok v s => exact hf v s
  | throws => exact (hx rfl).elim
  | _ => exact nofun

theorem readValue_ne_throws (c : Codec τ) (s : List Byte) : readValue c s ≠ .throws := by
  unfold readValue
  split
  · exact nofun
  · split <;> exact nofun

theorem readArray_ne_throws (c : Codec τ) (n : Nat) (s : List Byte) : readArray c n s ≠ .throws := by
  induction n generalizing s with
  | zero => exact nofun
  | succ n ih => exact load_bind_ne_throws (readValue_ne_throws c s) fun _ s => load_bind_ne_throws (ih s) nofun

theorem readPt_ne_throws (c : Codec τ) (d : Nat) (s : List Byte) : readPt c d s ≠ .throws := by
  induction d generalizing s with
  | zero => exact nofun
  | succ n ih => exact load_bind_ne_throws (readValue_ne_throws c s) fun _ s => load_bind_ne_throws (ih s) nofun

theorem readNode_ne_throws {β : Type} (P : Platform α) (branch : Codec β) (fuel : Nat) (s : List Byte) :
    readNode P branch fuel s ≠ .throws := by
  induction fuel generalizing s with
  | zero => exact nofun
  | succ n ih =>
    refine load_bind_ne_throws (readValue_ne_throws _ s) fun b s => ?_
    split
    · exact load_bind_ne_throws (readValue_ne_throws _ s) nofun
    · exact load_bind_ne_throws (readValue_ne_throws _ s) fun _ s => load_bind_ne_throws (ih s) fun _ s =>
        load_bind_ne_throws (ih s) nofun

theorem readData_ne_throws {β : Type} (P : Platform α) (branch : Codec β) (d fuel : Nat) (s : List Byte) :
    readData P branch d fuel s ≠ .throws :=
  load_bind_ne_throws (load_bind_ne_throws (readValue_ne_throws _ s) fun _ s => readArray_ne_throws _ _ s) fun _ s =>
    load_bind_ne_throws (readPt_ne_throws _ _ s) fun _ s => load_bind_ne_throws (readPt_ne_throws _ _ s) fun _ s =>
      load_bind_ne_throws (readNode_ne_throws _ _ _ s) nofun

theorem ofLoad_ne_throws {x : Load τ} (h : x ≠ .throws) : Call.ofLoad x ≠ .throws := by
  cases x with
  | throws => exact (h rfl).elim
  | _ => exact nofun

theorem loadFor_ne_throws (P : Platform α) (Dim : Option Nat) (d fuel : Nat) (s : List Byte) :
    loadFor P Dim d fuel s ≠ .throws := by
  unfold loadFor
  cases Dim with
  | some D =>
    exact ofLoad_ne_throws (load_bind_ne_throws (readValue_ne_throws _ s) fun _ s => readData_ne_throws _ _ _ _ s)
  | none =>
    have h : Call.ofLoad (loadDynamic P P.branch1 fuel s) ≠ .throws :=
      ofLoad_ne_throws (load_bind_ne_throws (readValue_ne_throws _ s) fun _ s =>
        load_bind_ne_throws (readData_ne_throws _ _ _ _ s) nofun)
    revert h
    cases Call.ofLoad (loadDynamic P P.branch1 fuel s) with
    | ok t =>
      intro _
      simp only [Call.bind]
      split <;> exact nofun
    | throws => exact fun h => (h rfl).elim
    | _ => exact fun _ => nofun

end

section
variable {α β τ : Type} {d : Nat}

theorem writeValue_prefix (pad : Nat → Byte) (c : Codec τ) (v : τ) (out : List Byte) : out <+: writeValue pad c v out :=
  List.prefix_append _ _

theorem writeNode_prefix (pad : Nat → Byte) (P : Platform α) (branch : Codec β) (t : Tree β) (out : List Byte) :
    out <+: writeNode pad P branch t out := by
  induction t generalizing out with
  | leaf b e => exact (writeValue_prefix ..).trans (writeValue_prefix ..)
  | branch b l r ihl ihr => exact ((writeValue_prefix ..).trans (writeValue_prefix ..)).trans ((ihl _).trans (ihr _))

theorem saveData_prefix (pad : Nat → Byte) (P : Platform α) (branch : Codec β) (t : TreeData α d β) (out : List Byte) :
    out <+: saveData pad P branch t out :=
  (writeValue_prefix ..).trans <| ((writeValue_prefix ..).trans (writeArray_prefix ..)).trans <|
    (writeArray_prefix ..).trans <| (writeArray_prefix ..).trans (writeNode_prefix ..)

end

section
variable {α F : Type} [LinearOrder α] [Zero α] [One α] [Add α] [Sub α] [Neg α] [Mul α] [Div α]
  {E : PyEnv α F} {P : DType → Platform α} {a : NArray α} {n d : Nat}

/-- C120: `load_kd_tree` refuses a file for its header only. Nothing else in the file is compared with the array. -/
theorem c120_refused_iff (hv : Valid a) (hp : Points a n d) (hdt : a.dtype = .float32 ∨ a.dtype = .float64)
    (junk : Fin 3 → Nat → Byte) (fuel : Nat) (file : List Byte) :
    PyTree.load E P junk a fuel file = .throws ↔ readHeader junk file = .throws := by
  obtain ⟨M, g1, g2, g3, g4⟩ := treeMap_of_points hv hp
  obtain ⟨buf', dat', size', sdim', rm'⟩ := M
  dsimp only at g2 g3 g4
  subst g2 g3
  obtain ⟨f, k1, -, -⟩ := points_of_points (m := ⟨buf', dat', size', sdim', rm'⟩) rfl g4
  unfold PyTree.load
  cases hh : readHeader junk file with
  | ok m rest =>
    refine iff_of_false ?_ nofun
    unfold openSpace
    rw [if_pos hdt, g1]
    simp only [Call.bind, k1]
    have h := loadFor_ne_throws (P a.dtype) (dimFor sdim') sdim' fuel rest
    revert h
    cases loadFor (P a.dtype) (dimFor sdim') sdim' fuel rest with
    | throws => exact fun h => (h rfl).elim
    | _ => exact fun _ => nofun
  | throws => exact iff_of_true rfl rfl
  | _ => exact iff_of_false nofun nofun

/-- C120 is false: no file that was saved by `save_kd_tree` is ever refused, whatever the scalar types, the dimensions and
the numbers of points of the file and of the array are. -/
theorem c120_never_refused_false (hv : Valid a) (hp : Points a n d) (hdt : a.dtype = .float32 ∨ a.dtype = .float64)
    (T : PyTree α) (pad : Nat → Byte) (junk : Fin 3 → Nat → Byte) (fuel : Nat) :
    PyTree.load E P junk a fuel (T.save pad P) ≠ .throws := by
  rw [Ne, c120_refused_iff hv hp hdt]
  have h : T.save pad P = headerBytes T.metric ++
      (saveData pad (P T.dtype) ((P T.dtype).branch1 T.space.sdim) T.tree.data (headerBytes T.metric)).drop
        (headerBytes T.metric).length := by
    have hw : headerBytes T.metric <+: saveData pad (P T.dtype) ((P T.dtype).branch1 T.space.sdim) T.tree.data
        (headerBytes T.metric) := saveData_prefix ..
    rw [List.prefix_iff_eq_append.1 hw]
    unfold PyTree.save pySave
    rw [writeHeader_eq, List.nil_append]
  rw [h, (c30_accepts_iff _ _ _ _).2 rfl]
  exact nofun

end

/-! ## A file of a tree of doubles read as one of floats -/

/-- Natural numbers in the place of the bits of a scalar, in `w` bytes. -/
def bitsCodec (w : Nat) : Codec Rat := (Codec.unsigned w).view (fun x => x.num.toNat) fun v => some (v : Rat)

/-- Four bytes for `float32`, eight for `float64`. -/
def bitsPlatform : DType → Platform Rat
  | .float32 => .le64 (bitsCodec 4)
  | _ => .le64 (bitsCodec 8)

def bitsNum : Num Rat := ⟨0, 18446744073709551615, fun x => x / 2, fun x => x / 2⟩

def bitsEnv : PyEnv Rat Rat := ⟨fun _ => bitsNum, Ref.std, Ref.sorter _, 1000, fun _ => id⟩

/-- The bits of the `double` 1.0000000000000002. -/
def aboveOne : Rat := 4607182418800017409

/-- One point of one dimension. -/
def lonePoint (t : DType) (x : Rat) : NArray Rat := ⟨t, [1, 1], [1, 1], 0, [x], true, true⟩

/-- C120 is false: the tree of one `double` is loaded as the tree of one `float`. The largest coordinate is taken for the
beginning of the root node; the leaf ends at 20967424 although there is one index. -/
theorem c120_false : ∃ T, PyTree.make bitsEnv (lonePoint .float64 aboveOne) .l1 1 20 = .ok T ∧
    ∃ T', PyTree.load bitsEnv bitsPlatform (fun _ _ => 0) (lonePoint .float32 1065353216) 100
        (T.save (fun _ => 0) bitsPlatform) = .ok T' ∧
      T.dtype = .float64 ∧ T'.dtype = .float32 ∧ T'.npts = 1 ∧ T'.tree.data.indices = [0] ∧
      ranges T.tree.data.root = [(0, 1)] ∧ ranges T'.tree.data.root = [(0, 20967424)] := by
  obtain ⟨T, h1, h2⟩ := Call.exists_of_check (x := PyTree.make bitsEnv (lonePoint .float64 aboveOne) .l1 1 20)
    (p := fun T : PyTree Rat => decide (T.dtype = .float64 ∧ ranges T.tree.data.root = [(0, 1)]) &&
      (PyTree.load bitsEnv bitsPlatform (fun _ _ => 0) (lonePoint .float32 1065353216) 100
        (T.save (fun _ => 0) bitsPlatform)).check fun T' => decide (T'.dtype = .float32 ∧ T'.npts = 1 ∧
          T'.tree.data.indices = [0] ∧ ranges T'.tree.data.root = [(0, 20967424)])) (by decide +kernel)
  rw [Bool.and_eq_true] at h2
  obtain ⟨h3, h4⟩ := h2
  obtain ⟨T', h5, h6⟩ := Call.exists_of_check h4
  obtain ⟨h7, h8⟩ := of_decide_eq_true h3
  obtain ⟨h9, h10, h11, h12⟩ := of_decide_eq_true h6
  exact ⟨T, h1, T', h5, h7, h9, h10, h11, h8, h12⟩

/-- A file with another beginning is refused, with an array as in `c120_refused_iff`. -/
example : PyTree.load ratEnv ratPlatform (fun _ _ => 0) maxArr 100 [137, 80, 75, 69] = .throws :=
  (c120_refused_iff maxArr_same.left.1 maxArr_same.left.2 (.inl rfl) _ _ _).2 (by decide +kernel)

end Pico.Props
