import Verif.Model.Uosr
import Verif.Props.Formats

/-!
# C107: directories of scans
-/

namespace Pico.Props

open Pico Spec

/-! ## Names -/

/-- The items of the pattern. -/
theorem scanPattern_items : regexItems scanPattern.length scanPattern =
    [.lit 's', .lit 'c', .lit 'a', .lit 'n', .digit, .digit, .digit, .any, .lit '3', .lit 'd'] := by
  decide +kernel

theorem isDigit_iff (c : Char) : c.isDigit = true ↔ '0' ≤ c ∧ c ≤ '9' := by
  unfold Char.isDigit
  simp only [Bool.and_eq_true, decide_eq_true_eq, ge_iff_le]
  rfl

/-- C107: the names that are accepted.  Any character may stand in place of the dot. -/
theorem c107_names (name : List Char) : scanNameOk name = true ↔
    ∃ a b c x : Char, a.isDigit ∧ b.isDigit ∧ c.isDigit ∧ x ≠ '\n' ∧ x ≠ '\r' ∧
      name = ['s', 'c', 'a', 'n', a, b, c, x, '3', 'd'] := by
  unfold scanNameOk
  rw [scanPattern_items]
  constructor
  · intro h
    match name, h with
    | [c0, c1, c2, c3, a, b, c, x, c8, c9], h =>
      simp only [regexMatch, RegexItem.ok, Bool.and_true, Bool.and_eq_true, decide_eq_true_eq] at h
      obtain ⟨h0, h1, h2, h3, ha, hb, hc, hx, h8, h9⟩ := h
      exact ⟨a, b, c, x, (isDigit_iff a).2 ha, (isDigit_iff b).2 hb, (isDigit_iff c).2 hc, hx.1, hx.2, by
        rw [h0, h1, h2, h3, h8, h9]⟩
    | [], h => simp [regexMatch] at h
    | [_], h => simp [regexMatch] at h
    | [_, _], h => simp [regexMatch] at h
    | [_, _, _], h => simp [regexMatch] at h
    | [_, _, _, _], h => simp [regexMatch] at h
    | [_, _, _, _, _], h => simp [regexMatch] at h
    | [_, _, _, _, _, _], h => simp [regexMatch] at h
    | [_, _, _, _, _, _, _], h => simp [regexMatch] at h
    | [_, _, _, _, _, _, _, _], h => simp [regexMatch] at h
    | [_, _, _, _, _, _, _, _, _], h => simp [regexMatch] at h
    | _ :: _ :: _ :: _ :: _ :: _ :: _ :: _ :: _ :: _ :: _ :: _, h => simp [regexMatch] at h
  · rintro ⟨a, b, c, x, ha, hb, hc, h1, h2, rfl⟩
    simp only [regexMatch, RegexItem.ok, Bool.and_true, Bool.and_eq_true, decide_eq_true_eq]
    exact ⟨trivial, trivial, trivial, trivial, (isDigit_iff a).1 ha, (isDigit_iff b).1 hb, (isDigit_iff c).1 hc,
      ⟨h1, h2⟩, trivial, trivial⟩

theorem scanDigits_eq_some {name ds : List Char} : scanDigits name = some ds ↔
    ∃ a b c : Char, a.isDigit ∧ b.isDigit ∧ c.isDigit ∧ ds = [a, b, c] ∧
      name = ['s', 'c', 'a', 'n', a, b, c, '.', '3', 'd'] := by
  constructor
  · intro h
    unfold scanDigits at h
    split at h
    · rename_i a b c
      split_ifs at h with hd
      simp only [Option.some.injEq] at h
      exact ⟨a, b, c, hd.1, hd.2.1, hd.2.2, h.symm, rfl⟩
    · cases h
  · rintro ⟨a, b, c, ha, hb, hc, rfl, rfl⟩
    simp [scanDigits, ha, hb, hc]

/-- C107: every name `scanNNN.3d` is accepted. -/
theorem c107_scans {name ds : List Char} (h : scanDigits name = some ds) : scanNameOk name = true := by
  obtain ⟨a, b, c, ha, hb, hc, -, rfl⟩ := scanDigits_eq_some.1 h
  exact (c107_names _).2 ⟨a, b, c, '.', ha, hb, hc, by decide, by decide, rfl⟩

theorem digit_ne_dot {c : Char} (h : c.isDigit = true) : c ≠ '.' := by
  rintro rfl
  exact absurd h (by decide)

/-- C107: the pose of `scanNNN.3d` is looked for in `scanNNN.pose`. -/
theorem c107_pose_name {name ds : List Char} (h : scanDigits name = some ds) :
    replaceExtension name stringPose = poseName ds := by
  obtain ⟨a, b, c, -, -, -, rfl, rfl⟩ := scanDigits_eq_some.1 h
  simp [replaceExtension, poseName, stringPose]

/-- C107: for any file name, what follows the last dot is replaced; names without a dot, names with no other dot than the
first character, and `..` are extended. -/
theorem c107_replace (ext : List Char) :
    (∀ base suffix : List Char, base ≠ [] → '.' ∉ suffix → base ++ '.' :: suffix ≠ ['.', '.'] →
      replaceExtension (base ++ '.' :: suffix) ext = base ++ ext) ∧
    (∀ name : List Char, '.' ∉ name.tail → replaceExtension name ext = name ++ ext) ∧
    replaceExtension ['.', '.'] ext = '.' :: '.' :: ext := by
  have drop : ∀ suffix rest : List Char, '.' ∉ suffix →
      (suffix.reverse ++ rest).dropWhile (fun c => decide (c ≠ '.')) = rest.dropWhile fun c => decide (c ≠ '.') := by
    intro suffix rest h
    refine List.dropWhile_append_of_pos fun c hc => ?_
    rw [List.mem_reverse] at hc
    exact decide_eq_true fun e => h (e ▸ hc)
  refine ⟨fun base suffix hb hs hne => ?_, fun name hn => ?_, by simp [replaceExtension]⟩
  · unfold replaceExtension
    have e : ((base ++ '.' :: suffix).reverse.dropWhile fun c => decide (c ≠ '.')) = '.' :: base.reverse := by
      rw [List.reverse_append, List.reverse_cons, List.append_assoc, drop suffix _ hs]
      simp
    rw [e]
    obtain ⟨x, b, hx⟩ : ∃ x b, base.reverse = x :: b := by
      cases h : base.reverse with
      | nil => exact absurd (List.reverse_eq_nil_iff.1 h) hb
      | cons x b => exact ⟨x, b, rfl⟩
    have : base = b.reverse ++ [x] := by rw [← List.reverse_reverse base, hx]; simp
    rw [hx]
    dsimp only
    rw [if_neg hne, this]
    simp
  · unfold replaceExtension
    cases name with
    | nil => rfl
    | cons c t =>
      rw [List.tail_cons] at hn
      have e : ((c :: t).reverse.dropWhile fun c => decide (c ≠ '.')) = [c].dropWhile fun c => decide (c ≠ '.') := by
        rw [List.reverse_cons, drop t _ hn]
      rw [e]
      by_cases hc : c = '.'
      · subst hc
        simp
      · simp [hc]

/-- Of the names that are accepted by mistake, those without a dot keep their end. -/
example : replaceExtension "scan000_3d".toList stringPose = "scan000_3d.pose".toList ∧
    replaceExtension ".hidden".toList stringPose = ".hidden.pose".toList ∧
    replaceExtension "a.b.c".toList stringPose = "a.b.pose".toList := by decide +kernel

/-- C107 is violated: `scan000_3d` is taken for a scan. -/
theorem c107_names_false : ∃ name, scanNameOk name = true ∧ scanDigits name = none :=
  ⟨['s', 'c', 'a', 'n', '0', '0', '0', '_', '3', 'd'], by decide +kernel, by decide +kernel⟩

/-- Names of other lengths, with fewer digits or other letters are not accepted. -/
example : scanNameOk "scan12.3d".toList = false ∧ scanNameOk "scan0123.3d".toList = false ∧
    scanNameOk "scan00a.3d".toList = false ∧ scanNameOk "scan000.3d~".toList = false ∧
    scanNameOk "scan042.3d".toList = true := by decide +kernel

/-! ## Poses -/

section Pose
variable {α : Type} [Zero α] [Add α] [Sub α] [Neg α] [Mul α]

/-- `std::num_get` reads the words that are numbers. -/
def NumGet (num : List Char → α × Option (List Char)) (IsNumber : List Char → α → Prop) : Prop :=
  ∀ w v, Word w → IsNumber w v → ∀ rest, (∀ c, rest.head? = some c → blank c) → num (w ++ rest) = (v, some rest)

omit [Zero α] [Add α] [Sub α] [Neg α] [Mul α] in
theorem extract_word {num : List Char → α × Option (List Char)} {g w text : List Char} (value : Option α)
    (hg : ∀ c ∈ g, blank c) (hw : Word w) :
    extractNumber num value (some (g ++ (w ++ text))) = (some (num (w ++ text)).1, (num (w ++ text)).2) := by
  have h1 : g.dropWhile isBlank = [] := by
    rw [List.dropWhile_eq_nil_iff]
    exact fun c hc => (isBlank_iff c).2 (hg c hc)
  have h2 : (g ++ (w ++ text)).dropWhile isBlank = w ++ text := by
    obtain ⟨hne, hw⟩ := hw
    cases w with
    | nil => exact absurd rfl hne
    | cons c w =>
      have hc : isBlank c = false := by
        rw [Bool.eq_false_iff, Ne, isBlank_iff]
        exact hw c (by simp)
      rw [List.dropWhile_append, h1]
      simp [hc]
  have h3 : (w ++ text).isEmpty = false := by
    cases w with
    | nil => exact absurd rfl hw.1
    | cons c w => rfl
  simp only [extractNumber, h2, h3, Bool.false_eq_true, if_false]

omit [Zero α] [Add α] [Sub α] [Neg α] [Mul α] in
theorem extract_number {num : List Char → α × Option (List Char)} {IsNumber : List Char → α → Prop}
    (hnum : NumGet num IsNumber) {g w text : List Char} {v : α} (value : Option α) (hg : ∀ c ∈ g, blank c)
    (hw : Word w) (hv : IsNumber w v) (hs : ∀ c, text.head? = some c → blank c) :
    extractNumber num value (some (g ++ (w ++ text))) = (some v, some text) := by
  rw [extract_word value hg hw, hnum w v hw hv text hs]

omit [Zero α] [Add α] [Sub α] [Neg α] [Mul α] in
theorem extract_blank {num : List Char → α × Option (List Char)} {g : List Char} (value : Option α)
    (hg : ∀ c ∈ g, blank c) : extractNumber num value (some g) = (value, none) := by
  have h1 : g.dropWhile isBlank = [] := by
    rw [List.dropWhile_eq_nil_iff]
    exact fun c hc => (isBlank_iff c).2 (hg c hc)
  simp [extractNumber, h1]

/-- The pose with the translation `x`, `y`, `z` and the angles `a`, `b`, `c` in degrees. -/
def scanPose (toRad sin cos : α → α) (x y z a b c : α) : Isometry α :=
  Isometry.fromEuler (sin (toRad a)) (cos (toRad a)) (sin (toRad b)) (cos (toRad b)) (sin (toRad c))
    (cos (toRad c)) ![x, y, z]

variable {num : List Char → α × Option (List Char)} {IsNumber : List Char → α → Prop} {toRad sin cos : α → α}

omit [Zero α] [Sub α] in
/-- C107: a file that begins with six numbers gives the pose with this translation and these angles; what follows is
ignored.  Missing: that other files are refused (`c107_pose_short`, `c107_pose_word`). -/
theorem c107_pose_partial (hnum : NumGet num IsNumber) {x y z a b c : α} {text rest : List Char}
    (h : Numbers IsNumber [x, y, z, a, b, c] text rest) :
    readPose num toRad sin cos (some text) = .ok (scanPose toRad sin cos x y z a b c) := by
  cases h with | cons g0 w0 v0 s0 h
  cases h with | cons g1 w1 v1 s1 h
  cases h with | cons g2 w2 v2 s2 h
  cases h with | cons g3 w3 v3 s3 h
  cases h with | cons g4 w4 v4 s4 h
  cases h with | cons g5 w5 v5 s5 h
  simp only [readPose, extract_number hnum none g0 w0 v0 s0, extract_number hnum none g1 w1 v1 s1,
    extract_number hnum none g2 w2 v2 s2, extract_number hnum none g3 w3 v3 s3,
    extract_number hnum none g4 w4 v4 s4, extract_number hnum none g5 w5 v5 s5, scanPose]

omit [Zero α] [Add α] [Sub α] [Neg α] [Mul α] in
theorem extract_failed (value : Option α) : extractNumber num value none = (value, none) := rfl

omit [Zero α] [Sub α] in
/-- C107 is violated: a pose with fewer than six numbers is undefined behaviour. -/
theorem c107_pose_short (hnum : NumGet num IsNumber) {vs : List α} {text rest : List Char}
    (h : Numbers IsNumber vs text rest) (hr : ∀ c ∈ rest, blank c) (hl : vs.length ≤ 5) :
    readPose num toRad sin cos (some text) = .ub := by
  rcases h with _ | ⟨g0, w0, v0, s0, h⟩
  · simp only [readPose, extract_blank none hr]
  rcases h with _ | ⟨g1, w1, v1, s1, h⟩
  · simp only [readPose, extract_number hnum none g0 w0 v0 s0, extract_blank none hr]
  rcases h with _ | ⟨g2, w2, v2, s2, h⟩
  · simp only [readPose, extract_number hnum none g0 w0 v0 s0, extract_number hnum none g1 w1 v1 s1,
      extract_blank none hr]
  rcases h with _ | ⟨g3, w3, v3, s3, h⟩
  · simp only [readPose, extract_number hnum none g0 w0 v0 s0, extract_number hnum none g1 w1 v1 s1,
      extract_number hnum none g2 w2 v2 s2, extract_blank none hr]
  rcases h with _ | ⟨g4, w4, v4, s4, h⟩
  · simp only [readPose, extract_number hnum none g0 w0 v0 s0, extract_number hnum none g1 w1 v1 s1,
      extract_number hnum none g2 w2 v2 s2, extract_number hnum none g3 w3 v3 s3, extract_blank none hr]
  rcases h with _ | ⟨g5, w5, v5, s5, h⟩
  · simp only [readPose, extract_number hnum none g0 w0 v0 s0, extract_number hnum none g1 w1 v1 s1,
      extract_number hnum none g2 w2 v2 s2, extract_number hnum none g3 w3 v3 s3,
      extract_number hnum none g4 w4 v4 s4, extract_blank none hr]
  · exfalso
    simp only [List.length_cons] at hl
    omega

omit [Zero α] [Sub α] in
/-- C107 is violated: with a word that is no number among the first five the pose is undefined behaviour; as the sixth
it is taken for the number that `std::num_get` stores on failure (zero, or the largest number). -/
theorem c107_pose_word (hnum : NumGet num IsNumber) {vs : List α} {text g w rest : List Char} {v : α}
    (h : Numbers IsNumber vs text (g ++ (w ++ rest))) (hg : ∀ c ∈ g, blank c) (hw : Word w)
    (hv : num (w ++ rest) = (v, none)) :
    (vs.length ≤ 4 → readPose num toRad sin cos (some text) = .ub) ∧
    ∀ x y z a b, vs = [x, y, z, a, b] →
      readPose num toRad sin cos (some text) = .ok (scanPose toRad sin cos x y z a b v) := by
  have hf : extractNumber num none (some (g ++ (w ++ rest))) = (some v, none) := by
    rw [extract_word none hg hw, hv]
  constructor
  · intro hl
    generalize hk : g ++ (w ++ rest) = k at h hf
    rcases h with _ | ⟨g0, w0, v0, s0, h⟩
    · simp only [readPose, hf, extract_failed]
    rcases h with _ | ⟨g1, w1, v1, s1, h⟩
    · simp only [readPose, extract_number hnum none g0 w0 v0 s0, hf, extract_failed]
    rcases h with _ | ⟨g2, w2, v2, s2, h⟩
    · simp only [readPose, extract_number hnum none g0 w0 v0 s0, extract_number hnum none g1 w1 v1 s1, hf,
        extract_failed]
    rcases h with _ | ⟨g3, w3, v3, s3, h⟩
    · simp only [readPose, extract_number hnum none g0 w0 v0 s0, extract_number hnum none g1 w1 v1 s1,
        extract_number hnum none g2 w2 v2 s2, hf, extract_failed]
    rcases h with _ | ⟨g4, w4, v4, s4, h⟩
    · simp only [readPose, extract_number hnum none g0 w0 v0 s0, extract_number hnum none g1 w1 v1 s1,
        extract_number hnum none g2 w2 v2 s2, extract_number hnum none g3 w3 v3 s3, hf, extract_failed]
    · exfalso
      simp only [List.length_cons] at hl
      omega
  · rintro x y z a b rfl
    generalize hk : g ++ (w ++ rest) = k at h hf
    cases h with | cons g0 w0 v0 s0 h
    cases h with | cons g1 w1 v1 s1 h
    cases h with | cons g2 w2 v2 s2 h
    cases h with | cons g3 w3 v3 s3 h
    cases h with | cons g4 w4 v4 s4 h
    cases h
    simp only [readPose, extract_number hnum none g0 w0 v0 s0, extract_number hnum none g1 w1 v1 s1,
      extract_number hnum none g2 w2 v2 s2, extract_number hnum none g3 w3 v3 s3,
      extract_number hnum none g4 w4 v4 s4, hf, scanPose]

/-! ## Directories -/

variable {γ : Type} {strtod : List Char → α} {cast : α → γ}

/-- The scans of a directory: regular files called `scanNNN.3d`, with their digits. -/
def scansOf (entries : List DirEntry) : List (List Char × List Char) :=
  entries.filterMap fun e => e.text.bind fun text => (scanDigits e.name).map fun ds => (ds, text)

/-- No regular file has another character in place of the dot. -/
def DotsOnly (entries : List DirEntry) : Prop :=
  ∀ e ∈ entries, e.text ≠ none → ∀ a b c x : Char,
    e.name = ['s', 'c', 'a', 'n', a, b, c, x, '3', 'd'] → x = '.'

/-- The scan with these digits has a pose file. -/
def HasPose (IsNumber : List Char → α → Prop) (toRad sin cos : α → α) (entries : List DirEntry) (ds : List Char)
    (T : Isometry α) : Prop :=
  ∃ text rest x y z a b c, ⟨poseName ds, some text⟩ ∈ entries ∧ Numbers IsNumber [x, y, z, a, b, c] text rest ∧
    T = scanPose toRad sin cos x y z a b c

theorem openEntry_eq {entries : List DirEntry} (hn : (entries.map DirEntry.name).Nodup) {name : List Char}
    {text : Option (List Char)} (h : (⟨name, text⟩ : DirEntry) ∈ entries) : openEntry entries name = text := by
  unfold openEntry
  induction entries with
  | nil => simp at h
  | cons e es ih =>
    simp only [List.map_cons, List.nodup_cons, List.mem_map, not_exists, not_and] at hn
    rcases List.mem_cons.1 h with rfl | h
    · simp
    · have : e.name ≠ name := fun hh => hn.1 _ h (by simp [hh])
      simp only [List.find?_cons, this, decide_false]
      exact ih hn.2 h

theorem openEntry_none {entries : List DirEntry} {name : List Char}
    (h : ∀ text, (⟨name, some text⟩ : DirEntry) ∉ entries) : openEntry entries name = none := by
  unfold openEntry
  cases hf : entries.find? (fun e => decide (e.name = name)) with
  | none => rfl
  | some e =>
    have h1 := List.mem_of_find?_eq_some hf
    have h2 := List.find?_some hf
    simp only [decide_eq_true_eq] at h2
    obtain ⟨n, t⟩ := e
    subst h2
    cases t with
    | none => rfl
    | some t => exact absurd h1 (h t)

/-- The paths are those of the scans. -/
theorem scanPaths_eq {entries : List DirEntry} (hd : DotsOnly entries) :
    scanPaths entries = (scansOf entries).map fun s => (['s', 'c', 'a', 'n'] ++ s.1 ++ ['.', '3', 'd'], s.2) := by
  unfold scanPaths scansOf
  rw [List.map_filterMap]
  refine List.filterMap_congr fun e he => ?_
  cases ht : e.text with
  | none => rfl
  | some text =>
    simp only [Option.bind_some, Option.map_map]
    by_cases hs : scanNameOk e.name = true
    · obtain ⟨a, b, c, x, ha, hb, hc, -, -, hn⟩ := (c107_names _).1 hs
      have hx := hd e he (by simp [ht]) a b c x hn
      subst hx
      have h1 := scanDigits_eq_some.2 ⟨a, b, c, ha, hb, hc, rfl, hn⟩
      rw [if_pos hs, h1, hn]
      rfl
    · rw [if_neg hs]
      cases h1 : scanDigits e.name with
      | none => rfl
      | some ds => exact absurd (c107_scans h1) hs

theorem scanDigits_name {ds : List Char} {entries : List DirEntry} {text : List Char}
    (h : (ds, text) ∈ scansOf entries) : scanDigits (['s', 'c', 'a', 'n'] ++ ds ++ ['.', '3', 'd']) = some ds := by
  unfold scansOf at h
  rw [List.mem_filterMap] at h
  obtain ⟨e, -, h⟩ := h
  cases ht : e.text with
  | none => simp [ht] at h
  | some t =>
    cases h1 : scanDigits e.name with
    | none => simp [h1, ht] at h
    | some d =>
      simp only [ht, h1, Option.bind_some, Option.map_some, Option.some.injEq, Prod.mk.injEq] at h
      obtain ⟨rfl, -⟩ := h
      obtain ⟨a, b, c, ha, hb, hc, rfl, -⟩ := scanDigits_eq_some.1 h1
      exact scanDigits_eq_some.2 ⟨a, b, c, ha, hb, hc, rfl, rfl⟩

/-- C107: when no regular file has another character in place of the dot and all scans have poses of six numbers, the
points are those of the lines of the scans, in the order of the directory, each scan moved by its own pose.  Missing:
see `c107_names_false`, `c107_pose_short`, `c107_pose_word`. -/
theorem c107_partial (hnum : NumGet num IsNumber) {entries : List DirEntry}
    (hn : (entries.map DirEntry.name).Nodup) (hd : DotsOnly entries) {pose : List Char → Isometry α}
    (hp : ∀ s ∈ scansOf entries, HasPose IsNumber toRad sin cos entries s.1 (pose s.1)) (points : List (Pt γ 3)) :
    readUosrRoot num toRad sin cos strtod cast (.dir entries) points =
      .ok (points ++ (scansOf entries).flatMap fun s =>
        (textLines s.2).map fun line i => cast (readScanLine strtod (pose s.1) line i)) := by
  unfold readUosrRoot
  dsimp only
  rw [scanPaths_eq hd]
  have key : ∀ (l : List (List Char × List Char)) (points : List (Pt γ 3)), (∀ s ∈ l, s ∈ scansOf entries) →
      readScans num toRad sin cos strtod cast entries
        (l.map fun s => (['s', 'c', 'a', 'n'] ++ s.1 ++ ['.', '3', 'd'], s.2)) points =
      .ok (points ++ l.flatMap fun s =>
        (textLines s.2).map fun line i => cast (readScanLine strtod (pose s.1) line i)) := by
    intro l
    induction l with
    | nil => intro points _; simp [readScans]
    | cons s l ih =>
      intro points hl
      obtain ⟨text, rest, x, y, z, a, b, c, he, ht, hT⟩ := hp s (hl s (by simp))
      have h1 := c107_pose_name (scanDigits_name (hl s (by simp)))
      rw [List.map_cons, readScans, h1, openEntry_eq hn he, c107_pose_partial hnum ht]
      dsimp only
      rw [ih _ fun r hr => hl r (by simp [hr]), c78_points, ← hT]
      simp
  exact key _ points fun s hs => hs

omit [Zero α] [Sub α] in
/-- C107: a scan without a pose is an exception. -/
theorem c107_missing (hnum : NumGet num IsNumber) {entries : List DirEntry}
    (hn : (entries.map DirEntry.name).Nodup) (hd : DotsOnly entries)
    (hp : ∀ s ∈ scansOf entries, (∃ T, HasPose IsNumber toRad sin cos entries s.1 T) ∨
      ∀ text, (⟨poseName s.1, some text⟩ : DirEntry) ∉ entries)
    (hm : ∃ s ∈ scansOf entries, ∀ text, (⟨poseName s.1, some text⟩ : DirEntry) ∉ entries)
    (points : List (Pt γ 3)) :
    readUosrRoot num toRad sin cos strtod cast (.dir entries) points = .throws := by
  unfold readUosrRoot
  dsimp only
  rw [scanPaths_eq hd]
  have key : ∀ (l : List (List Char × List Char)) (points : List (Pt γ 3)), (∀ s ∈ l, s ∈ scansOf entries) →
      (∃ s ∈ l, ∀ text, (⟨poseName s.1, some text⟩ : DirEntry) ∉ entries) →
      readScans num toRad sin cos strtod cast entries
        (l.map fun s => (['s', 'c', 'a', 'n'] ++ s.1 ++ ['.', '3', 'd'], s.2)) points = .throws := by
    intro l
    induction l with
    | nil => rintro points _ ⟨s, hs, -⟩; simp at hs
    | cons s l ih =>
      intro points hl hex
      have h1 := c107_pose_name (scanDigits_name (hl s (by simp)))
      rw [List.map_cons, readScans, h1]
      rcases hp s (hl s (by simp)) with ⟨T, text, rest, x, y, z, a, b, c, he, ht, -⟩ | hnone
      · rw [openEntry_eq hn he, c107_pose_partial hnum ht]
        dsimp only
        refine ih _ (fun r hr => hl r (by simp [hr])) ?_
        obtain ⟨r, hr, hr'⟩ := hex
        rcases List.mem_cons.1 hr with rfl | hr
        · exact absurd he (hr' text)
        · exact ⟨r, hr, hr'⟩
      · rw [openEntry_none hnone]
        simp [readPose]
  exact key _ points (fun s hs => hs) hm

/-- C107: the order in which the directory is listed only changes the order of the points. -/
theorem c107_order (hnum : NumGet num IsNumber) {entries entries' : List DirEntry} (hperm : entries.Perm entries')
    (hn : (entries.map DirEntry.name).Nodup) (hd : DotsOnly entries) {pose : List Char → Isometry α}
    (hp : ∀ s ∈ scansOf entries, HasPose IsNumber toRad sin cos entries s.1 (pose s.1)) (points : List (Pt γ 3)) :
    ∃ v v', readUosrRoot num toRad sin cos strtod cast (.dir entries) points = .ok v ∧
      readUosrRoot num toRad sin cos strtod cast (.dir entries') points = .ok v' ∧ v.Perm v' := by
  have hs : (scansOf entries).Perm (scansOf entries') := hperm.filterMap _
  refine ⟨_, _, c107_partial hnum hn hd hp points, c107_partial (pose := pose) hnum ?_ ?_ ?_ points, ?_⟩
  · exact (hperm.map DirEntry.name).nodup_iff.1 hn
  · exact fun e he => hd e (hperm.mem_iff.2 he)
  · intro s hs'
    obtain ⟨text, rest, x, y, z, a, b, c, he, ht⟩ := hp s (hs.mem_iff.2 hs')
    exact ⟨text, rest, x, y, z, a, b, c, hperm.mem_iff.1 he, ht⟩
  · exact (List.Perm.refl _).append (hs.flatMap_right _)

omit [Zero α] [Sub α] in
/-- C107: without the directory the program ends. -/
theorem c107_exits (points : List (Pt γ 3)) :
    readUosrRoot num toRad sin cos strtod cast .missing points = .exits ∧
    readUosrRoot num toRad sin cos strtod cast .other points = .exits := ⟨rfl, rfl⟩

end Pose

/-! ## A directory -/

/-- The number with these digits. -/
def digitsValue (w : List Char) : Int := w.foldl (fun n c => 10 * n + (c.toNat - '0'.toNat : Nat)) 0

/-- Reading digits, for the examples. -/
def digitsGet (s : List Char) : Int × Option (List Char) :=
  let w := s.takeWhile Char.isDigit
  if w.isEmpty then (0, none)
  else (digitsValue w, some (s.dropWhile Char.isDigit))

/-- Words of digits and their numbers. -/
def DigitsNumber (w : List Char) (v : Int) : Prop :=
  w ≠ [] ∧ (∀ c ∈ w, c.isDigit = true) ∧ v = digitsValue w

theorem digitsGet_ok : NumGet digitsGet DigitsNumber := by
  rintro w v - ⟨hne, hd, rfl⟩ rest hr
  have hb : ∀ c, blank c → c.isDigit = false := by
    intro c hc
    simp only [blank, List.mem_cons, List.not_mem_nil, or_false] at hc
    rcases hc with rfl | rfl | rfl | rfl | rfl | rfl <;> decide
  have h1 : (w ++ rest).takeWhile Char.isDigit = w := by
    rw [List.takeWhile_append_of_pos hd]
    cases rest with
    | nil => simp
    | cons c r => simp [hb c (hr c rfl)]
  have h2 : (w ++ rest).dropWhile Char.isDigit = rest := by
    rw [List.dropWhile_append_of_pos hd]
    cases rest with
    | nil => simp
    | cons c r => simp [hb c (hr c rfl)]
  have h3 : w.isEmpty = false := by cases w with
    | nil => exact absurd rfl hne
    | cons c w => rfl
  simp [digitsGet, h1, h2, h3]

/-- A text of six numbers. -/
def sixNumbers : List Char := "10 0 7\n0 0 0\n".toList

theorem numbers_six : Numbers DigitsNumber [10, 0, 7, 0, 0, 0] sixNumbers ['\n'] := by
  refine .cons (g := []) (w := ['1', '0']) (by simp) (by simp [Word, blank]) ⟨by simp, by decide, by decide⟩
    (text := " 0 7\n0 0 0\n".toList) (by simp [blank]) ?_
  refine .cons (g := [' ']) (w := ['0']) (by simp [blank]) (by simp [Word, blank]) ⟨by simp, by decide, by decide⟩
    (text := " 7\n0 0 0\n".toList) (by simp [blank]) ?_
  refine .cons (g := [' ']) (w := ['7']) (by simp [blank]) (by simp [Word, blank]) ⟨by simp, by decide, by decide⟩
    (text := "\n0 0 0\n".toList) (by simp [blank]) ?_
  refine .cons (g := ['\n']) (w := ['0']) (by simp [blank]) (by simp [Word, blank]) ⟨by simp, by decide, by decide⟩
    (text := " 0 0\n".toList) (by simp [blank]) ?_
  refine .cons (g := [' ']) (w := ['0']) (by simp [blank]) (by simp [Word, blank]) ⟨by simp, by decide, by decide⟩
    (text := " 0\n".toList) (by simp [blank]) ?_
  exact .cons (g := [' ']) (w := ['0']) (by simp [blank]) (by simp [Word, blank]) ⟨by simp, by decide, by decide⟩
    (text := "\n".toList) (by simp [blank]) (.nil _)

/-- A directory with two scans and their poses, another file, and a directory that is called like a scan. -/
def scanDir : List DirEntry :=
  [⟨"scan001.3d".toList, some "1 2 3\n4 5 6\n".toList⟩, ⟨"readme".toList, some "7 8 9".toList⟩,
    ⟨"scan000.pose".toList, some sixNumbers⟩, ⟨"scan002.3d".toList, none⟩,
    ⟨"scan000.3d".toList, some "1 1 1\n".toList⟩, ⟨"scan001.pose".toList, some sixNumbers⟩]

/-- The hypotheses of `c107_partial` for this directory (the angles are zero), and the points. -/
example : readUosrRoot digitsGet id (fun _ => (0 : Int)) (fun _ => 1) (fun w => (digitsGet w).1) id (.dir scanDir) [] =
    .ok ([] ++ (scansOf scanDir).flatMap fun s => (textLines s.2).map fun line i =>
      id (readScanLine (fun w => (digitsGet w).1)
        (scanPose id (fun _ => 0) (fun _ => 1) 10 0 7 0 0 0) line i)) := by
  refine c107_partial (pose := fun _ => scanPose id (fun _ => 0) (fun _ => 1) 10 0 7 0 0 0) digitsGet_ok
    (by decide +kernel) ?_ ?_ []
  · intro e he ht a b c x hx
    simp only [scanDir, List.mem_cons, List.not_mem_nil, or_false] at he
    rcases he with rfl | rfl | rfl | rfl | rfl | rfl <;> simp_all <;>
      exact hx.2.2.2.symm
  · have hs : scansOf scanDir = [("001".toList, "1 2 3\n4 5 6\n".toList), ("000".toList, "1 1 1\n".toList)] := by
      decide +kernel
    rw [hs]
    intro s hs
    simp only [List.mem_cons, List.not_mem_nil, or_false] at hs
    rcases hs with rfl | rfl
    · exact ⟨sixNumbers, ['\n'], 10, 0, 7, 0, 0, 0, by decide +kernel, numbers_six, rfl⟩
    · exact ⟨sixNumbers, ['\n'], 10, 0, 7, 0, 0, 0, by decide +kernel, numbers_six, rfl⟩

/-- The coordinates that are read from a directory. -/
def coordinates (r : ScanRead (List (Pt Int 3))) : ScanRead (List (Int × Int × Int)) :=
  match r with
  | .ok v => .ok (v.map fun p => (p 0, p 1, p 2))
  | .throws => .throws
  | .ub => .ub
  | .exits => .exits

/-- The points of this directory. -/
example : coordinates (readUosrRoot digitsGet id (fun _ => (0 : Int)) (fun _ => 1) (fun w => (digitsGet w).1) id
    (.dir scanDir) []) = .ok [(11, 2, 10), (14, 5, 13), (11, 1, 8)] := by decide +kernel

/-- C107 is violated: the points of `scan000_3d` are read as well. -/
theorem c107_dir_false : coordinates (readUosrRoot digitsGet id (fun _ => (0 : Int)) (fun _ => 1)
    (fun w => (digitsGet w).1) id (.dir [⟨"scan000_3d".toList, some "1 1 1\n".toList⟩,
      ⟨"scan000_3d.pose".toList, some sixNumbers⟩]) []) = .ok [(11, 1, 8)] ∧
    scansOf [⟨"scan000_3d".toList, some "1 1 1\n".toList⟩, ⟨"scan000_3d.pose".toList, some sixNumbers⟩] = [] := by
  decide +kernel

/-- C107 is violated: five numbers are undefined behaviour, five numbers and a word are a pose. -/
theorem c107_pose_false :
    coordinates (readUosrRoot digitsGet id (fun _ => (0 : Int)) (fun _ => 1) (fun w => (digitsGet w).1) id
      (.dir [⟨"scan000.3d".toList, some "1 1 1\n".toList⟩, ⟨"scan000.pose".toList, some "1 2 3 4 5\n".toList⟩]) []) =
      .ub ∧
    coordinates (readUosrRoot digitsGet id (fun _ => (0 : Int)) (fun _ => 1) (fun w => (digitsGet w).1) id
      (.dir [⟨"scan000.3d".toList, some "1 1 1\n".toList⟩, ⟨"scan000.pose".toList, some "1 2 3 0 0 x".toList⟩]) []) =
      .ok [(2, 3, 4)] := by
  decide +kernel

end Pico.Props
