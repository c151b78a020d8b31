import Verif.Proof.Stream
import Verif.Model.Header
import Verif.Props.Builder
import Mathlib.Tactic.FinCases

/-!
# C28 - C30, C51: saving and loading

The theorems quantify over all platforms (any sizes, alignments and byte orders), all contents of the
padding bytes (`pad`), everything that was in the stream before (`out`) and everything that follows
(`rest`).
-/

set_option linter.unusedSectionVars false

namespace Pico.Props

open Pico Spec

section
variable {α : Type} [LinearOrder α] [Add α] [Sub α] {d : Nat} {β : Type}
  {tag : SpaceTag α d β} {M : Metric α d} {N : Num α} {pts : Nat → Pt α d} {n : Nat}
  {o : BuildOpts α d} {fuel : Nat} {T : KdTree α d β} {P : Platform α} {branch : Codec β}

theorem fits_of_created {C : BuildCfg α d β} {depth : Int} {off : Nat} {seg : List Nat}
    {box : Box α d} {t : Tree β} {seg' : List Nat} {box' : Box α d}
    (h : Created C depth off seg box t seg' box') (hp : P.Holds n d) (hn : off + seg.length ≤ n)
    (hb : ∀ bl br dim, branch.Good (C.setBranch bl br dim)) : t.Fits P branch := by
  induction h with
  | leaf hl => exact ⟨hp.index _ (by omega), hp.index _ hn⟩
  | branch hl hs _ _ ih1 ih2 =>
    have h1 := splitter_take_length hs
    have h2 := splitter_drop_length hs
    have h3 := (splitter_ok hs).1.pos_le
    exact ⟨hb _ _ _, ih1 (by omega), ih2 (by omega)⟩

theorem fits_of_make (h : KdTree.make tag M N pts n o fuel = .ok T) (hp : P.Holds n d)
    (hs : ∀ v, P.scalar.Good v) (hb : ∀ bl br dim, branch.Good (tag.setBranch bl br dim)) :
    T.data.Fits P branch := by
  obtain ⟨box, hc⟩ := created_of_make h
  have hperm := (c16_partition h).1
  refine ⟨hp.dim, ?_, ?_, fun j => hs _, fun j => hs _, ?_, hp.bool⟩
  · rw [hperm.length_eq, List.length_range]
    exact hp.length
  · intro i hi
    exact hp.index i (List.mem_range.1 (hperm.mem_iff.1 hi)).le
  · exact fits_of_created hc hp (by simp) hb

theorem make_fields (h : KdTree.make tag M N pts n o fuel = .ok T) :
    T.tag = tag ∧ T.metric = M ∧ T.num = N ∧ T.pts = pts ∧ T.n = n := by
  unfold KdTree.make at h
  cases hc : buildTree (KdTree.cfg tag N pts o) n o.bounds fuel with
  | ub => simp [hc, Outcome.bind] at h
  | oof => simp [hc, Outcome.bind] at h
  | ok D =>
    simp only [hc, Outcome.bind, Outcome.ok.injEq] at h
    subst h
    exact ⟨rfl, rfl, rfl, rfl, rfl⟩

/-- C28, general form: any tree all of whose values are representable.  Loading gives back the very
same tree, so every query on it gives the same answer. -/
theorem c28_roundtrip (T : KdTree α d β) (h : T.data.Fits P branch) (hb : 0 < P.bool.size)
    (pad : Nat → Byte) (out : List Byte) :
    ∃ body, T.save pad P branch out = out ++ body ∧
      ∀ rest fuel, (body ++ rest).length < fuel →
        KdTree.load P branch T.tag T.metric T.num T.pts T.n fuel (body ++ rest) = .ok T rest := by
  obtain ⟨body, e, r⟩ := load_save_static h hb pad out
  refine ⟨body, e, fun rest fuel hf => ?_⟩
  unfold KdTree.load
  rw [r rest fuel hf]
  rfl

/-- C28 for trees with a run time dimension: the dimension comes back as well. -/
theorem c28_roundtrip_dynamic {B : Nat → Type} {branch : ∀ d, Codec (B d)}
    (t : TreeData α d (B d)) (h : t.Fits P (branch d)) (hb : 0 < P.bool.size)
    (pad : Nat → Byte) (out : List Byte) :
    ∃ body, saveData pad P (branch d) t out = out ++ body ∧
      ∀ rest fuel, (body ++ rest).length < fuel →
        loadDynamic P branch fuel (body ++ rest) = .ok ⟨d, t⟩ rest :=
  load_save_dynamic h hb pad out

end

section
variable {α : Type} [LinearOrder α] [Zero α] [One α] [Add α] [Sub α] [Neg α] {d : Nat}
  {M : Metric α d} {N : Num α} {pts : Nat → Pt α d} {n : Nat} {o : BuildOpts α d} {fuel : Nat}

/-- C28 for every Euclidean tree the constructor can produce, on every platform whose types hold the
sizes involved and whose scalar type represents every scalar. -/
theorem c28_built {T : KdTree α d (Branch1 α d)}
    (h : KdTree.make (euclideanTag α d) M N pts n o fuel = .ok T) {P : Platform α} (hp : P.Holds n d)
    (hs : ∀ v, P.scalar.Good v) (pad : Nat → Byte) (out : List Byte) :
    ∃ body, T.save pad P (P.branch1 d) out = out ++ body ∧
      ∀ rest fuel, (body ++ rest).length < fuel →
        KdTree.load P (P.branch1 d) (euclideanTag α d) M N pts n fuel (body ++ rest) =
          .ok T rest := by
  have hf : T.data.Fits P (P.branch1 d) :=
    fits_of_make h hp hs fun bl br dim => good_branch1 (hp.splitDim _ dim.isLt) (hs _) (hs _)
  obtain ⟨h1, h2, h3, h4, h5⟩ := make_fields h
  have := c28_roundtrip T hf hp.flag pad out
  rwa [h1, h2, h3, h4, h5] at this

/-- C28 for every topological tree the constructor can produce. -/
theorem c28_built_topological {T : KdTree α d (Branch2 α d)}
    (h : KdTree.make (topologicalTag α d) M N pts n o fuel = .ok T) {P : Platform α}
    (hp : P.Holds n d) (hs : ∀ v, P.scalar.Good v) (pad : Nat → Byte) (out : List Byte) :
    ∃ body, T.save pad P (P.branch2 d) out = out ++ body ∧
      ∀ rest fuel, (body ++ rest).length < fuel →
        KdTree.load P (P.branch2 d) (topologicalTag α d) M N pts n fuel (body ++ rest) =
          .ok T rest := by
  have hf : T.data.Fits P (P.branch2 d) :=
    fits_of_make h hp hs fun bl br dim =>
      good_branch2 (hp.splitDim _ dim.isLt) (hs _) (hs _) (hs _) (hs _)
  obtain ⟨h1, h2, h3, h4, h5⟩ := make_fields h
  have := c28_roundtrip T hf hp.flag pad out
  rwa [h1, h2, h3, h4, h5] at this

end

section
variable {α β : Type} {d : Nat} {P : Platform α} {branch : Codec β}

/-- Saving trees one after another. -/
def saveAll (pad : Nat → Byte) (P : Platform α) (branch : Codec β) (ts : List (TreeData α d β))
    (out : List Byte) : List Byte :=
  ts.foldl (fun out t => saveData pad P branch t out) out

/-- Loading `k` trees one after another. -/
def loadAll (P : Platform α) (branch : Codec β) (d fuel : Nat) :
    Nat → List Byte → Load (List (TreeData α d β))
  | 0, s => .ok [] s
  | k + 1, s => (loadStatic P branch d fuel s).bind fun t s =>
      (loadAll P branch d fuel k s).bind fun ts s => .ok (t :: ts) s

/-- C29: trees stored one after another, with other data before and behind, come back in order, and
reading stops exactly behind the last one. -/
theorem c29_sequence (ts : List (TreeData α d β)) (h : ∀ t ∈ ts, t.Fits P branch)
    (hb : 0 < P.bool.size) (pad : Nat → Byte) (out : List Byte) :
    ∃ body, saveAll pad P branch ts out = out ++ body ∧
      ∀ rest fuel, (body ++ rest).length < fuel →
        loadAll P branch d fuel ts.length (body ++ rest) = .ok ts rest := by
  induction ts generalizing out with
  | nil => exact ⟨[], by simp [saveAll], fun rest fuel _ => rfl⟩
  | cons t ts ih =>
    obtain ⟨b1, e1, r1⟩ := load_save_static (h t (by simp)) hb pad out
    obtain ⟨b2, e2, r2⟩ := ih (fun u hu => h u (by simp [hu])) (out ++ b1)
    refine ⟨b1 ++ b2, ?_, fun rest fuel hf => ?_⟩
    · rw [saveAll, List.foldl_cons, e1, ← List.append_assoc]
      exact e2
    · simp only [List.length_append] at hf
      simp only [List.length_cons, loadAll, List.append_assoc]
      rw [r1 (b2 ++ rest) fuel (by simp only [List.length_append]; omega)]
      simp only [Load.bind]
      rw [r2 rest fuel (by simp only [List.length_append]; omega)]

/-- C29: loading any proper prefix of a saved tree runs out of data. -/
theorem c29_prefix (t : TreeData α d β) (h : t.Fits P branch) (hb : 0 < P.bool.size)
    (pad : Nat → Byte) (p q : List Byte) (hq : q ≠ []) (hpq : saveData pad P branch t [] = p ++ q)
    (fuel : Nat) (hf : (p ++ q).length < fuel) : loadStatic P branch d fuel p = .eof := by
  obtain ⟨body, e, r⟩ := load_save_static h hb pad []
  rw [hpq, List.nil_append] at e
  subst e
  have := r [] fuel (by simpa using hf)
  rw [List.append_nil] at this
  exact eof_of_prefix (stable_static P branch d fuel) this hq

/-- C29 for a run time dimension. -/
theorem c29_prefix_dynamic {B : Nat → Type} {branch : ∀ d, Codec (B d)} (t : TreeData α d (B d))
    (h : t.Fits P (branch d)) (hb : 0 < P.bool.size) (pad : Nat → Byte) (p q : List Byte)
    (hq : q ≠ []) (hpq : saveData pad P (branch d) t [] = p ++ q) (fuel : Nat)
    (hf : (p ++ q).length < fuel) : loadDynamic P branch fuel p = .eof := by
  obtain ⟨body, e, r⟩ := load_save_dynamic h hb pad []
  rw [hpq, List.nil_append] at e
  subst e
  have := r [] fuel (by simpa using hf)
  rw [List.append_nil] at this
  exact eof_of_prefix (stable_dynamic P branch fuel) this hq

/-- C51: loading terminates on every byte sequence, valid or not. -/
theorem c51_load_terminates (P : Platform α) (branch : Codec β) (hb : 0 < P.bool.size)
    (s : List Byte) (fuel : Nat) (hs : s.length < fuel) : loadStatic P branch d fuel s ≠ .oof :=
  loadStatic_ne_oof P branch hb d fuel s hs

/-- C51 for a run time dimension. -/
theorem c51_load_terminates_dynamic (P : Platform α) {B : Nat → Type} (branch : ∀ d, Codec (B d))
    (hb : 0 < P.bool.size) (s : List Byte) (fuel : Nat) (hs : s.length < fuel) :
    loadDynamic P branch fuel s ≠ .oof :=
  loadDynamic_ne_oof P branch hb fuel s hs

/-- C51: what a loader does depends only on the bytes it consumes. -/
theorem c51_load_local (P : Platform α) (branch : Codec β) (s y : List Byte) (fuel : Nat)
    (t : TreeData α d β) (rest : List Byte) (h : loadStatic P branch d fuel s = .ok t rest) :
    loadStatic P branch d fuel (s ++ y) = .ok t (rest ++ y) := by
  have := stable_static P branch d fuel s y (by rw [h]; simp)
  rw [this, h]
  rfl

end

/-! ## C54 -/

/-- For concrete cases: the loader succeeds with a value that passes the test `p`. -/
def Load.check {τ : Type} (x : Load τ) (p : τ → Bool) : Bool :=
  match x with
  | .ok v _ => p v
  | _ => false

theorem Load.exists_of_check {τ : Type} {x : Load τ} {p : τ → Bool} (h : Load.check x p = true) :
    ∃ v rest, x = .ok v rest ∧ p v = true := by
  cases x with
  | ok v rest => exact ⟨v, rest, rfl, h⟩
  | eof => cases h
  | invalid => cases h
  | throws => cases h
  | oof => cases h

/-- C54 is false: a tree saved with three dimensions is accepted by a program compiled for two, because
the stored dimension is not compared.  The tree it gets has the right number of indices, but its root is a
leaf whose range lies outside of the index array. -/
theorem c54_false :
    let P := Platform.le64 (Codec.unsigned 1)
    let t : TreeData Nat 3 (Branch1 Nat 3) := ⟨[0], ⟨![5, 1, 7], ![5, 1, 7]⟩, .leaf 0 1⟩
    t.Fits P (P.branch1 3) ∧
    ∃ (t' : TreeData Nat 2 (Branch1 Nat 2)) (rest : List Byte),
      loadStatic P (P.branch1 2) 2 100 (saveData (fun _ => 0) P (P.branch1 3) t []) = .ok t' rest ∧
      t'.indices = [0] ∧ ranges t'.root = [(263, 65536)] := by
  refine ⟨⟨good_unsigned (by decide), good_unsigned (by decide), ?_, ?_, ?_,
    ⟨good_signed (by decide) (by decide), good_signed (by decide) (by decide)⟩, good_bool⟩, ?_⟩
  · intro i hi
    simp only [List.mem_cons, List.not_mem_nil, or_false] at hi
    subst hi
    exact good_signed (by decide) (by decide)
  · intro j
    fin_cases j
    · exact good_unsigned (v := 5) (by decide)
    · exact good_unsigned (v := 1) (by decide)
    · exact good_unsigned (v := 7) (by decide)
  · intro j
    fin_cases j
    · exact good_unsigned (v := 5) (by decide)
    · exact good_unsigned (v := 1) (by decide)
    · exact good_unsigned (v := 7) (by decide)
  · obtain ⟨t', rest, h, hp⟩ := Load.exists_of_check
      (x := loadStatic (Platform.le64 (Codec.unsigned 1)) ((Platform.le64 (Codec.unsigned 1)).branch1 2)
        2 100 (saveData (fun _ => 0) (Platform.le64 (Codec.unsigned 1))
          ((Platform.le64 (Codec.unsigned 1)).branch1 3)
          ⟨[0], ⟨![5, 1, 7], ![5, 1, 7]⟩, .leaf 0 1⟩ []))
      (p := fun t' => decide (t'.indices = [0]) && decide (ranges t'.root = [(263, 65536)]))
      (by decide +kernel)
    simp only [Bool.and_eq_true, decide_eq_true_eq] at hp
    exact ⟨t', rest, h, hp.1, hp.2⟩

section
variable {α : Type} {P : Platform α}

/-- C54, what holds: a loader with a run time dimension that accepts anything has read the dimension from
the file, so a caller can compare it (the code itself does not). -/
theorem c54_dimension_partial {B : Nat → Type} (branch : ∀ d, Codec (B d)) (fuel : Nat)
    (s : List Byte) (d : Nat) (t : TreeData α d (B d)) (rest : List Byte)
    (h : loadDynamic P branch fuel s = .ok ⟨d, t⟩ rest) :
    ∃ s', readValue P.sizeT s = .ok d s' := by
  unfold loadDynamic at h
  cases hv : readValue P.sizeT s with
  | ok d' s' =>
    rw [hv] at h
    simp only [Load.bind] at h
    cases hr : readData P (branch d') d' fuel s' with
    | ok t' r' =>
      simp only [hr, Load.ok.injEq, Sigma.mk.injEq] at h
      exact ⟨s', by rw [h.1.1]⟩
    | eof => rw [hr] at h; cases h
    | invalid => rw [hr] at h; cases h
    | throws => rw [hr] at h; cases h
    | oof => rw [hr] at h; cases h
  | eof => rw [hv] at h; cases h
  | invalid => rw [hv] at h; cases h
  | throws => rw [hv] at h; cases h
  | oof => rw [hv] at h; cases h

end

/-! ## C30 -/

/-- The bytes of a header, written out: signature, version 1 and the length of the metric string in
little endian order, the metric string. -/
def headerBytes (m : PyMetric) : List Byte :=
  ([0x89, 0x50, 0x4B, 0x44] : List Byte) ++ ([1, 0, 0, 0] : List Byte) ++
    match m with
    | .l1 => [2, 0, 0, 0, 0, 0, 0, 0, 0x4C, 0x31]
    | .l2Squared => [9, 0, 0, 0, 0, 0, 0, 0, 0x4C, 0x32, 0x53, 0x71, 0x75, 0x61, 0x72, 0x65, 0x64]
    | .lpinf => [5, 0, 0, 0, 0, 0, 0, 0, 0x4C, 0x50, 0x49, 0x6E, 0x66]

theorem writeHeader_eq (pad : Nat → Byte) (m : PyMetric) (out : List Byte) :
    writeHeader pad (metricString m) out = out ++ headerBytes m := by
  cases m <;>
    simp [writeHeader, writeVector, writeValue, writeArray, metricString, headerBytes, signature,
      version, Codec.raw, Codec.unsigned, Codec.char, leBytes, asciiBytes]

theorem metricFromString_some {s : List Byte} {m : PyMetric} :
    metricFromString s = some m ↔ s = metricString m := by
  unfold metricFromString
  constructor
  · intro h
    split at h
    · rename_i h1; cases h; exact h1
    · split at h
      · rename_i h1; cases h; exact h1
      · split at h
        · rename_i h1; cases h; exact h1
        · exact absurd h (by simp)
  · rintro rfl
    cases m <;> decide

theorem fill_length (old : Nat → Byte) (n : Nat) (s : List Byte) : (fill old n s).length = n := by
  simp [fill]

theorem fill_of_le (old : Nat → Byte) {n : Nat} {s : List Byte} (h : n ≤ s.length) :
    fill old n s = s.take n := by
  apply List.ext_getElem
  · simp [fill, h]
  · intro i h1 h2
    have hi : i < s.length := by
      rw [List.length_take] at h2
      omega
    simp [fill, hi]

/-- A metric name read from a stream with zeros behind it was completely there. -/
theorem length_of_fill_zero {n : Nat} {s : List Byte} {m : PyMetric}
    (h : fill (fun _ => 0) n s = metricString m) :
    n = (metricString m).length ∧ n ≤ s.length ∧ s.take n = metricString m := by
  have hn : n = (metricString m).length := by rw [← h, fill_length]
  have hpos : 0 < n := by rw [hn]; cases m <;> decide
  have hle : n ≤ s.length := by
    by_contra hc
    have h1 : (fill (fun _ => 0) n s)[n - 1]? = some 0 := by
      have : s.length ≤ n - 1 := by omega
      simp [fill, hpos, this]
    have h2 : (metricString m)[n - 1]? ≠ some 0 := by
      rw [hn]
      cases m <;> decide
    rw [h] at h1
    exact h2 h1
  exact ⟨hn, hle, by rw [← fill_of_le _ hle, h]⟩

/-- C30: a file is accepted as a file of metric `m` exactly if it starts with the header of `m`, and then
reading continues behind the header.  This holds for every file, however short, and whatever the memory
of the uninitialised variables holds. -/
theorem c30_accepts_iff (junk : Fin 3 → Nat → Byte) (s : List Byte) (m : PyMetric)
    (rest : List Byte) : readHeader junk s = .ok m rest ↔ s = headerBytes m ++ rest := by
  constructor
  · intro h
    unfold readHeader at h
    split at h
    · cases h
    rename_i hsig
    simp only at h
    split at h
    · cases h
    rename_i hver
    split at h
    · rename_i m' hm
      have hm := metricFromString_some.1 hm
      obtain ⟨hn, hle, htake⟩ := length_of_fill_zero hm
      cases h
      simp only [List.length_drop] at hle
      have hlen : 0 < (metricString m).length := by cases m <;> decide
      have hs1 : s.take 4 = signature := by
        rw [← fill_of_le (junk 0) (by omega)]
        exact not_not.1 hsig
      have hs2 : (s.drop 4).take 4 = leBytes 4 1 := by
        have hl : ((s.drop 4).take 4).length = 4 := by
          rw [List.length_take, List.length_drop]; omega
        have hv : leValue ((s.drop 4).take 4) = 1 := by
          rw [← fill_of_le (junk 1) (by rw [List.length_drop]; omega)]
          exact not_not.1 hver
        have := leBytes_leValue ((s.drop 4).take 4)
        rw [hl, hv] at this
        exact this.symm
      have hs3 : ((s.drop 4).drop 4).take 8 = leBytes 8 (metricString m).length := by
        have hl : (((s.drop 4).drop 4).take 8).length = 8 := by
          rw [List.length_take, List.length_drop, List.length_drop]; omega
        have hv : leValue (((s.drop 4).drop 4).take 8) = (metricString m).length := by
          rw [← fill_of_le (junk 2) (by rw [List.length_drop, List.length_drop]; omega)]
          exact hn
        have := leBytes_leValue (((s.drop 4).drop 4).take 8)
        rw [hl, hv] at this
        exact this.symm
      have hs : s = s.take 4 ++ ((s.drop 4).take 4 ++ (((s.drop 4).drop 4).take 8 ++
          (((s.drop 4).drop 4).drop 8))) := by
        rw [List.take_append_drop, List.take_append_drop, List.take_append_drop]
      rw [← List.take_append_drop (leValue (fill (junk 2) 8 ((s.drop 4).drop 4)))
        (((s.drop 4).drop 4).drop 8), htake, hs1, hs2, hs3] at hs
      refine hs.trans ?_
      generalize List.drop _ _ = r
      cases m <;> simp [headerBytes, metricString, signature, asciiBytes, leBytes]
    · cases h
  · rintro rfl
    have h1 : ∀ (junk : Nat → Byte) (l r : List Byte) (n : Nat), l.length = n →
        fill junk n (l ++ r) = l := fun junk l r n hn => by
      rw [fill_of_le _ (by simp [← hn]), ← hn]; simp
    have e : headerBytes m = signature ++ (leBytes 4 1 ++ (leBytes 8 (metricString m).length ++
        metricString m)) := by
      cases m <;> decide
    unfold readHeader
    rw [e]
    simp only [List.append_assoc]
    have d1 : ∀ l r : List Byte, ∀ n, l.length = n → (l ++ r).drop n = r := fun l r n hn => by
      rw [← hn]; simp
    have hl4 : signature.length = 4 := by decide
    rw [h1 _ _ _ 4 hl4, if_neg (by simp), d1 _ _ 4 hl4]
    rw [h1 _ _ _ 4 (leBytes_length _ _), if_neg (by decide), d1 _ _ 4 (leBytes_length _ _),
      h1 _ _ _ 8 (leBytes_length _ _), d1 _ _ 8 (leBytes_length _ _)]
    have hv : leValue (leBytes 8 (metricString m).length) = (metricString m).length := by
      cases m <;> decide
    rw [hv, h1 _ _ _ _ rfl, metricFromString_some.2 rfl, d1 _ _ _ rfl]

/-- C30: every other file raises an error. -/
theorem c30_rejects (junk : Fin 3 → Nat → Byte) (s : List Byte)
    (h : ∀ m, ¬ headerBytes m <+: s) : readHeader junk s = .throws := by
  have h1 : ∀ m rest, readHeader junk s ≠ .ok m rest := fun m rest hc =>
    h m ⟨rest, ((c30_accepts_iff junk s m rest).1 hc).symm⟩
  unfold readHeader at h1 ⊢
  split
  · rfl
  · rename_i c1
    rw [if_neg c1] at h1
    simp only at h1 ⊢
    split
    · rfl
    · rename_i c2
      rw [if_neg c2] at h1
      split
      · rename_i m hm
        rw [hm] at h1
        exact absurd rfl (h1 _ _)
      · rfl

/-- C30: the header written for a metric is the header of that metric. -/
theorem c30_written (pad : Nat → Byte) (m : PyMetric) (out : List Byte) :
    writeHeader pad (metricString m) out = out ++ headerBytes m :=
  writeHeader_eq pad m out

/-- C30: `load_kd_tree` after `save_kd_tree` recovers the metric and the tree, when the array has the
spatial dimension of the saved tree. -/
theorem c30_roundtrip {α : Type} {d : Nat} {P : Platform α} (m : PyMetric)
    (t : TreeData α d (Branch1 α d)) (h : t.Fits P (P.branch1 d)) (hb : 0 < P.bool.size)
    (pad : Nat → Byte) (junk : Fin 3 → Nat → Byte) :
    ∃ body, pySave pad P m t [] = body ∧
      ∀ rest fuel, (body ++ rest).length < fuel →
        pyLoad junk P d fuel (body ++ rest) = .ok (m, ⟨d, t⟩) rest := by
  obtain ⟨b1, e1, r1⟩ := load_save_static h hb pad (headerBytes m)
  obtain ⟨b2, e2, r2⟩ := load_save_dynamic (branch := P.branch1) h hb pad (headerBytes m)
  have hbb : b2 = b1 := by
    rw [e1] at e2
    exact (List.append_cancel_left e2).symm
  subst hbb
  refine ⟨headerBytes m ++ b2, ?_, fun rest fuel hf => ?_⟩
  · unfold pySave
    rw [writeHeader_eq, List.nil_append]
    exact e1
  · unfold pyLoad
    have hh : readHeader junk (headerBytes m ++ b2 ++ rest) = .ok m (b2 ++ rest) :=
      (c30_accepts_iff _ _ _ _).2 (List.append_assoc _ _ _)
    have hl : (b2 ++ rest).length < fuel := by
      simp only [List.length_append] at hf ⊢
      omega
    rw [hh]
    simp only [Load.bind]
    split
    · rename_i hd
      subst hd
      rw [r1 rest fuel hl]
    · split
      · rename_i hd
        subst hd
        rw [r1 rest fuel hl]
      · rw [r2 rest fuel hl]

/-! ## Concrete cases -/

/-- 16-bit unsigned scalars. -/
def u16 : Codec (Fin 65536) :=
  (Codec.unsigned 2).view Fin.val fun v => if h : v < 65536 then some ⟨v, h⟩ else none

theorem good_u16 (v : Fin 65536) : u16.Good v :=
  good_view (good_unsigned (by have := v.isLt; omega)) (by simp)

/-- Hypotheses of `c28_built`: an 8-bit-like machine scalar type all of whose values are representable,
and a tree with five points. -/
example : ∃ T : KdTree (Fin 65536) 2 (Branch1 (Fin 65536) 2),
    KdTree.make (euclideanTag _ 2) (metricL1 (Fin 65536) 2)
      ⟨0, 65535, fun _ => 0, fun x => ⟨x.val / 2, by omega⟩⟩
      (fun i => ![(⟨i * 7 % 5, by omega⟩ : Fin 65536), ⟨i * 3 % 5, by omega⟩]) 5
      (Ref.optsSliding _ 2) 10 = .ok T ∧
    (ranges T.data.root).length = 5 ∧ (Platform.le64 u16).Holds 5 2 ∧
    ∀ v, (Platform.le64 u16).scalar.Good v := by
  obtain ⟨T, hT, hp⟩ := Outcome.exists_of_check
    (x := KdTree.make (euclideanTag _ 2) (metricL1 (Fin 65536) 2)
      ⟨0, 65535, fun _ => 0, fun x => ⟨x.val / 2, by omega⟩⟩
      (fun i => ![(⟨i * 7 % 5, by omega⟩ : Fin 65536), ⟨i * 3 % 5, by omega⟩]) 5
      (Ref.optsSliding _ 2) 10)
    (p := fun T => decide ((ranges T.data.root).length = 5)) (by decide +kernel)
  exact ⟨T, hT, of_decide_eq_true hp, holds_le64 _ (by omega) (by omega), good_u16⟩

/-- A tree with one branch, saved with two different paddings: the bytes differ, the tree read back does
not (8-byte scalars behind the 4-byte `split_dim`). -/
example :
    let P := Platform.le64 (Codec.unsigned 8)
    let t : TreeData Nat 1 (Branch1 Nat 1) :=
      ⟨[1, 0], ⟨fun _ => 3, fun _ => 9⟩, .branch ⟨0, 3, 9⟩ (.leaf 0 1) (.leaf 1 2)⟩
    saveData (fun _ => 0) P (P.branch1 1) t [] ≠ saveData (fun _ => 7) P (P.branch1 1) t [] ∧
    (saveData (fun _ => 0) P (P.branch1 1) t []).length = 8 + (8 + 8) + 8 + 8 + (1 + 24) + 9 + 9 := by
  decide +kernel

/-- Hypotheses of `c28_roundtrip`, `c29_sequence`, `c29_prefix` and `c30_roundtrip` for that tree. -/
example :
    let P := Platform.le64 (Codec.unsigned 8)
    let t : TreeData Nat 1 (Branch1 Nat 1) :=
      ⟨[1, 0], ⟨fun _ => 3, fun _ => 9⟩, .branch ⟨0, 3, 9⟩ (.leaf 0 1) (.leaf 1 2)⟩
    t.Fits P (P.branch1 1) ∧ 0 < P.bool.size := by
  refine ⟨⟨good_unsigned (by decide), good_unsigned (by decide), ?_, fun _ => good_unsigned (v := 3) (by decide),
    fun _ => good_unsigned (v := 9) (by decide), ⟨good_branch1 (good_signed (by decide) (by decide))
      (good_unsigned (by decide)) (good_unsigned (by decide)),
      ⟨good_signed (by decide) (by decide), good_signed (by decide) (by decide)⟩,
      ⟨good_signed (by decide) (by decide), good_signed (by decide) (by decide)⟩⟩, good_bool⟩,
    Nat.one_pos⟩
  intro i hi
  simp only [List.mem_cons, List.not_mem_nil, or_false] at hi
  rcases hi with rfl | rfl <;> exact good_signed (by decide) (by decide)

/-- Files `c30_rejects` speaks about: a wrong version, an unknown metric, and a header cut off in the
middle of the name of the metric, where the uninitialised memory happens to hold the right values. -/
example :
    (∀ m, ¬ headerBytes m <+: [0x89, 0x50, 0x4B, 0x44, 2, 0, 0, 0, 2, 0, 0, 0, 0, 0, 0, 0, 0x4C, 0x31]) ∧
    (∀ m, ¬ headerBytes m <+: [0x89, 0x50, 0x4B, 0x44, 1, 0, 0, 0, 2, 0, 0, 0, 0, 0, 0, 0, 0x4C, 0x39]) ∧
    (∀ m, ¬ headerBytes m <+: [0x89, 0x50, 0x4B]) := by
  refine ⟨?_, ?_, ?_⟩ <;> intro m <;> cases m <;> decide

end Pico.Props
