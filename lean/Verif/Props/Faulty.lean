import Verif.Proof.Faulty
import Verif.Props.Frame
import Mathlib.Data.List.GetD

/-!
# C112: failures of the file system are reported

A disk may be full, a file may be cut.  What the code notices is whether the file can be opened.  The
theorems say what happens in all other cases, for every device, every cut and every content of the memory.
-/

set_option linter.unusedSectionVars false

namespace Pico.Props

open Pico Spec

section
variable {α β : Type} {d : Nat} {P : Platform α} {branch : Codec β}

/-- C112, what holds (save to a stream): if the stream is still good after `save`, everything was
written, and what was written loads as the saved tree from a stream that is then still good.  So a caller
who looks at their stream is safe. -/
theorem c112_saved_partial {t : TreeData α d β} (h : t.Fits P branch) (hb : 0 < P.bool.size)
    (pad junk : Nat → Byte) (dev : Nat → Nat → Nat) (out : List Byte)
    (hg : (trySave pad dev P branch t ⟨out, false⟩).bad = false) :
    ∃ body, (trySave pad dev P branch t ⟨out, false⟩).written = out ++ body ∧
      ∀ rest fuel, (body ++ rest).length < fuel →
        rawStatic junk P branch d fuel ⟨body ++ rest, false, 0⟩ =
          .ok t ⟨rest, false, body.length⟩ := by
  obtain ⟨body, e, r⟩ := load_save_static h hb pad out
  refine ⟨body, ?_, fun rest fuel hf => ?_⟩
  · rw [(((attempts_save pad dev P branch t).2 ⟨out, false⟩).2 rfl).1 hg]
    exact e
  · rw [((refines_static junk P branch d fuel).ok (body ++ rest) 0 t rest (r rest fuel hf)).2]
    simp

/-- C112, what holds (load from a stream): if the stream has not failed after `load`, the data were
complete: the tree is the one that is in the file. -/
theorem c112_loaded_partial (junk : Nat → Byte) (fuel : Nat) (s : List Byte) (t : TreeData α d β)
    (rest : List Byte) :
    (∃ a, rawStatic junk P branch d fuel ⟨s, false, 0⟩ = .ok t ⟨rest, false, a⟩) ↔
      loadStatic P branch d fuel s = .ok t rest := by
  constructor
  · rintro ⟨a, h⟩
    exact (refines_static junk P branch d fuel).back s 0 t _ h rfl
  · intro h
    exact ⟨_, ((refines_static junk P branch d fuel).ok s 0 t rest h).2⟩

/-- The same for a run time dimension. -/
theorem c112_loaded_dynamic_partial {B : Nat → Type} {branch : ∀ d, Codec (B d)} (junk : Nat → Byte)
    (fuel : Nat) (s : List Byte) (t : Σ d, TreeData α d (B d)) (rest : List Byte) :
    (∃ a, rawDynamic junk P branch fuel ⟨s, false, 0⟩ = .ok t ⟨rest, false, a⟩) ↔
      loadDynamic P branch fuel s = .ok t rest := by
  constructor
  · rintro ⟨a, h⟩
    exact (refines_dynamic junk P branch fuel).back s 0 t _ h rfl
  · intro h
    exact ⟨_, ((refines_dynamic junk P branch fuel).ok s 0 t rest h).2⟩

/-- C112, what holds (save to a file): an exception if the file cannot be opened; otherwise the file holds
a prefix of what it should hold, whatever the device does. -/
theorem c112_file_partial (opens : Bool) (pad : Nat → Byte) (dev : Nat → Nat → Nat) (kept : Nat)
    (t : TreeData α d β) :
    (opens = false → saveFile opens pad dev kept P branch t = .throws) ∧
    (opens = true → ∃ f, saveFile opens pad dev kept P branch t = .ok f ∧
      f <+: saveData pad P branch t []) := by
  constructor
  · rintro rfl
    rfl
  · rintro rfl
    refine ⟨_, rfl, (List.take_prefix _ _).trans ?_⟩
    exact (((attempts_save pad dev P branch t).2 ⟨[], false⟩).2 rfl).2.2

/-- C112, what holds (load from a file that cannot be opened): an exception. -/
theorem c112_missing_partial (junk : Nat → Byte) (tag : SpaceTag α d β) (M : Metric α d) (N : Num α)
    (pts : Nat → Pt α d) (n fuel : Nat) :
    loadFile junk P branch tag M N pts n fuel none = .throws := rfl

theorem bind_ne_throws {σ τ : Type} {x : Read σ} {f : σ → In → Read τ} (hx : x ≠ .throws)
    (hf : ∀ v s, f v s ≠ .throws) : x.bind f ≠ .throws := by
  cases x with
  | ok v s => exact hf v s
  | throws => exact absurd rfl hx
  | _ => simp [Read.bind]

theorem rawUse_ne_throws {τ : Type} (junk : Nat → Byte) (c : Codec τ) (s : In) : rawUse junk c s ≠ .throws := by
  unfold rawUse
  dsimp only
  split
  · simp
  · split <;> simp

theorem rawKeep_ne_throws {τ : Type} (junk : Nat → Byte) (c : Codec τ) (s : In) : rawKeep junk c s ≠ .throws := by
  unfold rawKeep
  dsimp only
  split <;> simp

theorem rawArray_ne_throws {τ : Type} (old : Nat → Byte) (c : Codec τ) (n : Nat) (s : In) :
    rawArray old c n s ≠ .throws := by
  induction n generalizing s with
  | zero => simp [rawArray]
  | succ n ih =>
    exact bind_ne_throws (rawKeep_ne_throws old c s) fun _ s => bind_ne_throws (ih s) fun _ _ => by simp

theorem rawPt_ne_throws {τ : Type} (old : Nat → Byte) (c : Codec τ) (d : Nat) (s : In) :
    rawPt old c d s ≠ .throws := by
  induction d generalizing s with
  | zero => simp [rawPt]
  | succ n ih =>
    exact bind_ne_throws (rawKeep_ne_throws old c s) fun _ s => bind_ne_throws (ih s) fun _ _ => by simp

theorem rawNode_ne_throws (junk : Nat → Byte) (P : Platform α) (branch : Codec β) (fuel : Nat) (s : In) :
    rawNode junk P branch fuel s ≠ .throws := by
  induction fuel generalizing s with
  | zero => simp [rawNode]
  | succ fuel ih =>
    refine bind_ne_throws (rawUse_ne_throws junk P.bool s) fun isLeaf s => ?_
    cases isLeaf with
    | true => exact bind_ne_throws (rawKeep_ne_throws junk P.leaf s) fun _ _ => by simp
    | false =>
      exact bind_ne_throws (rawKeep_ne_throws junk branch s) fun _ s => bind_ne_throws (ih s) fun _ s =>
        bind_ne_throws (ih s) fun _ _ => by simp

theorem rawData_ne_throws (junk old : Nat → Byte) (P : Platform α) (branch : Codec β) (d fuel : Nat) (s : In) :
    rawData junk old P branch d fuel s ≠ .throws :=
  bind_ne_throws (bind_ne_throws (rawUse_ne_throws junk P.sizeT s) fun n s => rawArray_ne_throws _ P.index n s)
    fun _ s => bind_ne_throws (rawPt_ne_throws old P.scalar d s) fun _ s =>
      bind_ne_throws (rawPt_ne_throws old P.scalar d s) fun _ s =>
        bind_ne_throws (rawNode_ne_throws junk P branch fuel s) fun _ _ => by simp

/-- C112 is false for every file that can be opened: no contents whatsoever lead to an exception, whether cut, empty or
of another format.  An exception is raised exactly if the file cannot be opened.  (An exception of `resize` for a size
beyond the memory is C113.) -/
theorem c112_silent_false (junk : Nat → Byte) (tag : SpaceTag α d β) (M : Metric α d) (N : Num α)
    (pts : Nat → Pt α d) (n fuel : Nat) (file : Option (List Byte)) :
    (loadFile junk P branch tag M N pts n fuel file = .throws ↔ file = none) ∧
    ∀ {B : Nat → Type} (branch : ∀ d, Codec (B d)) (s : In), rawDynamic junk P branch fuel s ≠ .throws := by
  refine ⟨⟨fun h => ?_, fun h => by rw [h]; rfl⟩, fun branch s => ?_⟩
  · cases file with
    | none => rfl
    | some f =>
      exact absurd h (bind_ne_throws (bind_ne_throws (rawUse_ne_throws junk P.sizeT _) fun _ s =>
        rawData_ne_throws junk junk P branch d fuel s) fun _ _ => by simp)
  · exact bind_ne_throws (rawUse_ne_throws junk P.sizeT s) fun d s =>
      bind_ne_throws (rawData_ne_throws junk _ P (branch d) d fuel s) fun _ _ => by simp

/-- What loading makes of a saved file when the bytes `q` at its end are missing and `p` is what is left.
* If more is missing than the record of the last leaf, no tree comes out: the code uses an indeterminate
  value (`c29_prefix` says that the reader runs out of data).
* Otherwise **a tree comes out**: the last leaf (`t.root.lastLeaf`) gets a range made of the bytes `lp`
  that are left of its record and of bytes that happen to be in memory, everything else is as it was
  saved.  The stream has failed. -/
structure CutLoads (junk : Nat → Byte) (P : Platform α) (t : TreeData α d β) (p q : List Byte)
    (x : Read (TreeData α d β)) : Prop where
  more : P.leaf.size < q.length → ∀ t' s, x ≠ .ok t' s
  leaf : q.length ≤ P.leaf.size → ∃ pre lp pad,
    p = pre ++ lp ∧ P.leaf.enc pad t.root.lastLeaf = lp ++ q ∧
    match P.leaf.dec (fill (fun i => junk (pre.length + i)) P.leaf.size lp) with
    | some range => x = .ok { t with root := t.root.setLast range } ⟨[], true, pre.length + P.leaf.size⟩
    | none => x = .invalid

/-- C112, exactly what happens to a file that is cut, for every tree, cut and content of the memory. -/
theorem c112_cut {t : TreeData α d β} (h : t.Fits P branch) (hb : 0 < P.bool.size) (pad : Nat → Byte)
    {p q : List Byte} (hq : q ≠ []) (hpq : saveData pad P branch t [] = p ++ q) (junk : Nat → Byte)
    (fuel : Nat) (hf : Spec.height t.root < fuel) :
    CutLoads junk P t p q (rawStatic junk P branch d fuel ⟨p, false, 0⟩) := by
  have hc := static_cut h hb pad junk fuel hf (out := []) hq hpq 0
  refine ⟨hc.bad, fun hl => ?_⟩
  obtain ⟨pre, lp, pad', e1, e2, e3⟩ := hc.leaf hl
  refine ⟨pre, lp, pad', e1, e2, ?_⟩
  rw [Nat.zero_add] at e3
  rw [e3]
  unfold cutLeaf
  cases P.leaf.dec (fill (fun i => junk (pre.length + i)) P.leaf.size lp) <;> rfl

/-- The same for a run time dimension. -/
theorem c112_cut_dynamic {B : Nat → Type} {branch : ∀ d, Codec (B d)} {t : TreeData α d (B d)}
    (h : t.Fits P (branch d)) (hb : 0 < P.bool.size) (pad : Nat → Byte)
    {p q : List Byte} (hq : q ≠ []) (hpq : saveData pad P (branch d) t [] = p ++ q) (junk : Nat → Byte)
    (fuel : Nat) (hf : Spec.height t.root < fuel) :
    (P.leaf.size < q.length → ∀ t' s, rawDynamic junk P branch fuel ⟨p, false, 0⟩ ≠ .ok t' s) ∧
    (q.length ≤ P.leaf.size → ∃ pre lp pad,
      p = pre ++ lp ∧ P.leaf.enc pad t.root.lastLeaf = lp ++ q ∧
      match P.leaf.dec (fill (fun i => junk (pre.length + i)) P.leaf.size lp) with
      | some range => rawDynamic junk P branch fuel ⟨p, false, 0⟩ =
          .ok ⟨d, { t with root := t.root.setLast range }⟩ ⟨[], true, pre.length + P.leaf.size⟩
      | none => rawDynamic junk P branch fuel ⟨p, false, 0⟩ = .invalid) := by
  have hc := dynamic_cut h hb pad junk fuel hf (out := []) hq hpq 0
  refine ⟨hc.bad, fun hl => ?_⟩
  obtain ⟨pre, lp, pad', e1, e2, e3⟩ := hc.leaf hl
  refine ⟨pre, lp, pad', e1, e2, ?_⟩
  rw [Nat.zero_add] at e3
  rw [e3]
  unfold cutLeaf
  cases P.leaf.dec (fill (fun i => junk (pre.length + i)) P.leaf.size lp) <;> rfl

end

section
variable {α : Type} {d : Nat} {β : Type} {branch : Codec β}

theorem leaf_le64 (scalar : Codec α) (pad : Nat → Byte) (b e : Nat) :
    (Platform.le64 scalar).leaf.enc pad (b, e) = leBytes 4 b ++ leBytes 4 e := by
  simp [Platform.leaf, Platform.le64, Codec.close, Codec.seq, Codec.signed, gapTo, padBytes]

theorem leaf_le64_size (scalar : Codec α) : (Platform.le64 scalar).leaf.size = 8 := by
  simp [Platform.leaf, Platform.le64, Codec.close, Codec.seq, Codec.signed, gapTo]

/-- C112 is false, for every tree: `save` returns without an exception although the last four bytes did not
reach the disk, and `load` returns without an exception a tree whose last leaf ends anywhere (`e'`),
depending on what was in memory.  (64-bit little endian platform, `int` indices, `Dim` known at compile
time.) -/
theorem c112_false {scalar : Codec α} {t : TreeData α d β}
    (h : t.Fits (Platform.le64 scalar) branch) (pad : Nat → Byte) (e' : Nat) (he : e' < 2 ^ 31)
    (tag : SpaceTag α d β) (M : Metric α d) (N : Num α) (pts : Nat → Pt α d) (n : Nat) (fuel : Nat)
    (hf : Spec.height t.root < fuel) :
    ∃ kept f junk s,
      saveFile true pad (fun _ n => n) kept (Platform.le64 scalar) branch t = .ok f ∧
      f.length + 4 = (saveData pad (Platform.le64 scalar) branch t []).length ∧
      loadFile junk (Platform.le64 scalar) branch tag M N pts n fuel (some f) =
        .ok ⟨tag, M, N, pts, n, { t with root := t.root.setLast (t.root.lastLeaf.1, e') }⟩ s := by
  set P := Platform.le64 scalar with hP
  have hb : 0 < P.bool.size := Nat.one_pos
  have hs8 : P.leaf.size = 8 := leaf_le64_size scalar
  -- everything is taken until the file is closed
  have hw : (trySave pad (fun _ n => n) P branch t ⟨[], false⟩).written = saveData pad P branch t [] := by
    have hgood : ∀ (bs : List Byte) (s : Out), s.bad = false → (s.put (fun _ n => n) bs).bad = false := by
      intro bs s hs
      simp [Out.put, hs]
    have hnode : ∀ (u : Tree β) (s : Out), s.bad = false →
        (tryNode pad (fun _ n => n) P branch u s).bad = false := by
      intro u
      induction u with
      | leaf b e => exact fun s hs => hgood _ _ (hgood _ _ hs)
      | branch data l r ih1 ih2 => exact fun s hs => ih2 _ (ih1 _ (hgood _ _ (hgood _ _ hs)))
    refine (((attempts_save pad (fun _ n => n) P branch t).2 ⟨[], false⟩).2 rfl).1 ?_
    exact hnode _ _ (hgood _ _ (hgood _ _ (hgood _ _ (hgood _ _ (hgood _ _ rfl)))))
  -- the file is longer than the record of a leaf
  have hlen : 8 < (saveData pad P branch t []).length := by
    have h1 := writeNode_long h.root h.bool hb pad (writeArray pad P.scalar (List.ofFn t.rootBox.max)
      (writeArray pad P.scalar (List.ofFn t.rootBox.min)
        (writeVector pad P.sizeT P.index t.indices (writeValue pad P.sizeT d []))))
    rw [hs8] at h1
    have h2 : writeNode pad P branch t.root (writeArray pad P.scalar (List.ofFn t.rootBox.max)
      (writeArray pad P.scalar (List.ofFn t.rootBox.min)
        (writeVector pad P.sizeT P.index t.indices (writeValue pad P.sizeT d [])))) =
        saveData pad P branch t [] := rfl
    rw [h2] at h1
    omega
  set full := saveData pad P branch t [] with hfull
  have hpq : saveData pad P branch t [] = full.take (full.length - 4) ++ full.drop (full.length - 4) :=
    (List.take_append_drop _ _).symm
  have hql : (full.drop (full.length - 4)).length = 4 := by
    rw [List.length_drop]
    omega
  have hq : full.drop (full.length - 4) ≠ [] := by
    intro h
    rw [h] at hql
    cases hql
  obtain ⟨pre, lp, pad', e1, e2, -⟩ :=
    (c112_cut h hb pad hq hpq (fun _ => 0) fuel hf).leaf (by rw [hql, hs8]; omega)
  obtain ⟨pre', lp', pad'', e1', e2', e3'⟩ :=
    (c112_cut h hb pad hq hpq (fun i => (leBytes 4 e').getD (i - pre.length - 4) 0) fuel hf).leaf
      (by rw [hql, hs8]; omega)
  have hlp : lp = leBytes 4 t.root.lastLeaf.1 := by
    have : P.leaf.enc pad' t.root.lastLeaf =
        leBytes 4 t.root.lastLeaf.1 ++ leBytes 4 t.root.lastLeaf.2 := leaf_le64 scalar pad' _ _
    rw [this] at e2
    refine (List.append_inj e2 ?_).1.symm
    have := congrArg List.length e2
    simp only [List.length_append, leBytes_length, hql] at this ⊢
    omega
  have hlp' : lp' = leBytes 4 t.root.lastLeaf.1 := by
    have : P.leaf.enc pad'' t.root.lastLeaf =
        leBytes 4 t.root.lastLeaf.1 ++ leBytes 4 t.root.lastLeaf.2 := leaf_le64 scalar pad'' _ _
    rw [this] at e2'
    refine (List.append_inj e2' ?_).1.symm
    have := congrArg List.length e2'
    simp only [List.length_append, leBytes_length, hql] at this ⊢
    omega
  have hpre : pre' = pre := by
    rw [e1, hlp, hlp'] at e1'
    exact (List.append_cancel_right e1').symm
  subst hpre
  have hbytes : fill (fun i => (leBytes 4 e').getD (pre'.length + i - pre'.length - 4) 0) P.leaf.size lp' =
      P.leaf.enc pad (t.root.lastLeaf.1, e') := by
    rw [hs8, hlp', hP, leaf_le64]
    have : ∀ (x y : List Byte), x.length = 4 → y.length = 4 →
        fill (fun i => y.getD (pre'.length + i - pre'.length - 4) 0) 8 x = x ++ y := by
      intro x y hx hy
      apply List.ext_getElem
      · simp [fill, hx, hy]
      · intro i h1 h2
        simp only [fill, List.getElem_map, List.getElem_range]
        by_cases hi : i < 4
        · rw [List.getElem_append_left (by omega), List.getD_eq_getElem _ _ (by omega)]
        · rw [List.getElem_append_right (by omega), List.getD_eq_default _ _ (by omega)]
          have h3 : pre'.length + i - pre'.length - 4 = i - x.length := by omega
          simp only [List.length_append, hx, hy] at h2
          rw [h3, List.getD_eq_getElem _ _ (by omega)]
    exact this _ _ (leBytes_length _ _) (leBytes_length _ _)
  have hgood : P.leaf.Good (t.root.lastLeaf.1, e') := by
    have hroot : ∀ u : Tree β, u.Fits P branch → P.index.Good u.lastLeaf.1 := by
      intro u
      induction u with
      | leaf b e => exact fun h => h.1
      | branch data l r _ ih => exact fun h => ih h.2.2
    exact good_leaf (hroot _ h.root) (good_signed (by decide) (by omega))
  rw [hbytes, (hgood pad).2] at e3'
  refine ⟨full.length - 4, full.take (full.length - 4),
    fun i => (leBytes 4 e').getD (i - pre'.length - 4) 0, ⟨[], true, pre'.length + P.leaf.size⟩, ?_, ?_, ?_⟩
  · rw [saveFile, if_pos rfl, hw]
  · rw [List.length_take]
    omega
  · rw [loadFile, e3']
    rfl

/-- The headers of two metrics do not begin alike. -/
theorem header_prefix {m m' : PyMetric} (h : headerBytes m' <+: headerBytes m) : m' = m := by
  revert h
  cases m <;> cases m' <;> decide

/-- C112 for Python: a file that is cut within its header raises an exception; one that is cut between the
header and the last leaf gives no tree (but undefined behaviour, not an exception); one that is cut within
the last leaf gives a tree with an arbitrary range in this leaf. -/
theorem c112_python {P : Platform α} (m : PyMetric) {t : TreeData α d (Branch1 α d)}
    (h : t.Fits P (P.branch1 d)) (hb : 0 < P.bool.size) (pad : Nat → Byte) {p q : List Byte} (hq : q ≠ [])
    (hpq : pySave pad P m t [] = p ++ q) (junk0 : Fin 3 → Nat → Byte) (junk : Nat → Byte) (fuel : Nat)
    (hf : Spec.height t.root < fuel) :
    (p.length < (headerBytes m).length → pyLoadRaw junk0 junk P d fuel p = .throws) ∧
    (P.leaf.size < q.length → ∀ v s, pyLoadRaw junk0 junk P d fuel p ≠ .ok v s) ∧
    (q.length ≤ P.leaf.size → ∃ pre lp pad,
      p = headerBytes m ++ pre ++ lp ∧ P.leaf.enc pad t.root.lastLeaf = lp ++ q ∧
      match P.leaf.dec (fill (fun i => junk (pre.length + i)) P.leaf.size lp) with
      | some range => pyLoadRaw junk0 junk P d fuel p =
          .ok (m, ⟨d, { t with root := t.root.setLast range }⟩) ⟨[], true, pre.length + P.leaf.size⟩
      | none => pyLoadRaw junk0 junk P d fuel p = .invalid) := by
  rw [pySave, writeHeader_eq, List.nil_append] at hpq
  obtain ⟨body, e, -⟩ := load_save_static h hb pad (headerBytes m)
  have hlong : P.leaf.size < body.length := by
    have h1 := writeNode_long h.root h.bool hb pad (writeArray pad P.scalar (List.ofFn t.rootBox.max)
      (writeArray pad P.scalar (List.ofFn t.rootBox.min)
        (writeVector pad P.sizeT P.index t.indices (writeValue pad P.sizeT d (headerBytes m)))))
    have h2 : headerBytes m <+: writeArray pad P.scalar (List.ofFn t.rootBox.max)
      (writeArray pad P.scalar (List.ofFn t.rootBox.min)
        (writeVector pad P.sizeT P.index t.indices (writeValue pad P.sizeT d (headerBytes m)))) :=
      (((List.prefix_append _ _).trans ((List.prefix_append _ _).trans
        (writeArray_prefix pad P.index t.indices _))).trans
        (writeArray_prefix pad P.scalar _ _)).trans (writeArray_prefix pad P.scalar _ _)
    have h3 := h2.length_le
    have h4 : writeNode pad P (P.branch1 d) t.root (writeArray pad P.scalar (List.ofFn t.rootBox.max)
      (writeArray pad P.scalar (List.ofFn t.rootBox.min)
        (writeVector pad P.sizeT P.index t.indices (writeValue pad P.sizeT d (headerBytes m))))) =
        headerBytes m ++ body := e
    rw [h4, List.length_append] at h1
    omega
  rw [e] at hpq
  by_cases hp : p.length < (headerBytes m).length
  · -- cut within the header
    have hthrow : readHeader junk0 p = .throws := by
      refine c30_rejects junk0 p fun m' hm' => ?_
      have h1 : p <+: headerBytes m := by
        have h2 : p <+: headerBytes m ++ body := hpq ▸ List.prefix_append _ _
        exact List.prefix_of_prefix_length_le h2 (List.prefix_append _ _) hp.le
      have h2 := header_prefix (hm'.trans h1)
      subst h2
      have := hm'.length_le
      omega
    have hx : pyLoadRaw junk0 junk P d fuel p = .throws := by
      rw [pyLoadRaw, hthrow]
    have hql : P.leaf.size < q.length := by
      have := congrArg List.length hpq
      simp only [List.length_append] at this
      omega
    exact ⟨fun _ => hx, fun _ v s => by rw [hx]; simp, fun h => absurd h (by omega)⟩
  · obtain ⟨p2, rfl⟩ : headerBytes m <+: p :=
      List.prefix_of_prefix_length_le (List.prefix_append _ body) (hpq ▸ List.prefix_append p q)
        (by omega)
    have e2 : body = p2 ++ q := by
      rw [List.append_assoc] at hpq
      exact List.append_cancel_left hpq
    have hr : readHeader junk0 (headerBytes m ++ p2) = .ok m p2 := (c30_accepts_iff junk0 _ m p2).2 rfl
    rw [e2] at e
    refine ⟨fun h => absurd h hp, ?_⟩
    have key : Cut junk P t.root.lastLeaf
        (fun x => (m, (⟨d, { t with root := t.root.setLast x }⟩ : Σ d, TreeData α d (Branch1 α d))))
        p2 q 0 (pyLoadRaw junk0 junk P d fuel (headerBytes m ++ p2)) := by
      rw [pyLoadRaw, hr]
      dsimp only
      by_cases h2 : d = 2
      · subst h2
        exact (static_cut h hb pad junk fuel hf hq e 0).map
          (fun t => (m, (⟨2, t⟩ : Σ d, TreeData α d (Branch1 α d))))
      · by_cases h3 : d = 3
        · subst h3
          exact (static_cut h hb pad junk fuel hf hq e 0).map
            (fun t => (m, (⟨3, t⟩ : Σ d, TreeData α d (Branch1 α d))))
        · rw [if_neg h2, if_neg h3]
          exact (dynamic_cut (branch := P.branch1) h hb pad junk fuel hf hq e 0).map
            (fun t => (m, t))
    refine ⟨key.bad, fun hl => ?_⟩
    obtain ⟨pre, lp, pad', e3, e4, e5⟩ := key.leaf hl
    refine ⟨pre, lp, pad', by rw [e3, List.append_assoc], e4, ?_⟩
    rw [Nat.zero_add] at e5
    rw [e5]
    unfold cutLeaf
    cases P.leaf.dec (fill (fun i => junk (pre.length + i)) P.leaf.size lp) <;> rfl

end

/-! ## Concrete cases -/

/-- C112 is false: three points 0, 4, 9 are indexed and saved to a disk with room for all but the last four
bytes.  Neither `save` nor `load` reports anything, but the nearest neighbor of 20 is now point 0 instead of
point 2 (if the memory of the last leaf held zeros). -/
theorem c112_answer_false :
    let P := Platform.le64 i32
    let o : BuildOpts Int 1 := ⟨Ref.std, .sliding, .maxLeafSize 2, .fromSpace, 32⟩
    ∃ T, KdTree.make (euclideanTag Int 1) (metricL1 Int 1) Ref.intNum (twoPts 9) 3 o 10 = .ok T ∧
      T.searchNn ![20] ⟨0, 0⟩ = ⟨2, 11⟩ ∧
      ∃ f, saveFile true (fun _ => 0) (fun held n => min n (63 - held)) 1000 P (P.branch1 1) T.data = .ok f ∧
      ∃ T' s, loadFile (fun _ => 0) P (P.branch1 1) (euclideanTag Int 1) (metricL1 Int 1) Ref.intNum
          (twoPts 9) 3 10 (some f) = .ok T' s ∧
        T'.searchNn ![20] ⟨0, 0⟩ = ⟨0, 20⟩ := by
  obtain ⟨T, hT, hp⟩ := Outcome.exists_of_check
    (x := KdTree.make (euclideanTag Int 1) (metricL1 Int 1) Ref.intNum (twoPts 9) 3
      ⟨Ref.std, .sliding, .maxLeafSize 2, .fromSpace, 32⟩ 10)
    (p := fun T => decide (T.searchNn ![20] ⟨0, 0⟩ = ⟨2, 11⟩) &&
      match saveFile true (fun _ => 0) (fun held n => min n (63 - held)) 1000 (Platform.le64 i32)
          ((Platform.le64 i32).branch1 1) T.data with
      | .ok f => match loadFile (fun _ => 0) (Platform.le64 i32) ((Platform.le64 i32).branch1 1)
          (euclideanTag Int 1) (metricL1 Int 1) Ref.intNum (twoPts 9) 3 10 (some f) with
        | .ok T' _ => decide (T'.searchNn ![20] ⟨0, 0⟩ = ⟨0, 20⟩)
        | _ => false
      | _ => false)
    (by decide +kernel)
  simp only [Bool.and_eq_true, decide_eq_true_eq] at hp
  refine ⟨T, hT, hp.1, ?_⟩
  have hp2 := hp.2
  split at hp2
  · rename_i f hf
    refine ⟨f, hf, ?_⟩
    split at hp2
    · rename_i T' s hl
      exact ⟨T', s, hl, of_decide_eq_true hp2⟩
    · cases hp2
  · cases hp2

/-- Hypotheses of `c112_saved_partial`, `c112_cut`, `c112_false` and `c112_python`: five points with 16-bit
coordinates, a disk with enough room. -/
example : ∃ T : KdTree (Fin 65536) 2 (Branch1 (Fin 65536) 2),
    KdTree.make (euclideanTag _ 2) (metricL1 (Fin 65536) 2)
      ⟨0, 65535, fun _ => 0, fun x => ⟨x.val / 2, by omega⟩⟩
      (fun i => ![(⟨i * 7 % 5, by omega⟩ : Fin 65536), ⟨i * 3 % 5, by omega⟩]) 5
      (Ref.optsSliding _ 2) 10 = .ok T ∧
    T.data.Fits (Platform.le64 u16) ((Platform.le64 u16).branch1 2) ∧
    Spec.height T.data.root < 10 ∧
    (trySave (fun _ => 7) (fun held _ => 300 - held) (Platform.le64 u16)
      ((Platform.le64 u16).branch1 2) T.data ⟨[1, 2], false⟩).bad = false ∧
    (trySave (fun _ => 7) (fun held _ => 100 - held) (Platform.le64 u16)
      ((Platform.le64 u16).branch1 2) T.data ⟨[1, 2], false⟩).bad = true := by
  obtain ⟨T, hT, hp⟩ := Outcome.exists_of_check
    (x := KdTree.make (euclideanTag _ 2) (metricL1 (Fin 65536) 2)
      ⟨0, 65535, fun _ => 0, fun x => ⟨x.val / 2, by omega⟩⟩
      (fun i => ![(⟨i * 7 % 5, by omega⟩ : Fin 65536), ⟨i * 3 % 5, by omega⟩]) 5
      (Ref.optsSliding _ 2) 10)
    (p := fun T => decide (Spec.height T.data.root < 10 ∧
      (trySave (fun _ => 7) (fun held _ => 300 - held) (Platform.le64 u16)
        ((Platform.le64 u16).branch1 2) T.data ⟨[1, 2], false⟩).bad = false ∧
      (trySave (fun _ => 7) (fun held _ => 100 - held) (Platform.le64 u16)
        ((Platform.le64 u16).branch1 2) T.data ⟨[1, 2], false⟩).bad = true)) (by decide +kernel)
  have hh : (Platform.le64 u16).Holds 5 2 := holds_le64 _ (by omega) (by omega)
  exact ⟨T, hT, fits_of_make hT hh good_u16
    fun bl br dim => good_branch1 (hh.splitDim _ dim.isLt) (good_u16 _) (good_u16 _),
    of_decide_eq_true hp⟩

end Pico.Props
