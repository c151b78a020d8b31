import Verif.Model.Plot
import Mathlib.Data.List.Basic
import Mathlib.Tactic.Common

/-!
# C150: the plots of the benchmarks

Every measurement of a build, of a k nearest neighbor search and of a radius search is shown once, in the plot of its
category, on the line of its tree, method and second argument.
-/

namespace Pico.Props
open Plot

/-! ## What the patterns match -/

theorem Plot.mem_bind {γ δ : Type} {p : Pat γ} {f : γ → Pat δ} {s t : List Char} {a : δ} :
    (a, t) ∈ p.bind f s ↔ ∃ b u, (b, u) ∈ p s ∧ (a, t) ∈ f b u := by
  simp only [Pat.bind, List.mem_flatMap, Prod.exists]

theorem Plot.mem_groups {γ : Type} {a b : γ} {s t : List Char} : (a, t) ∈ Pat.groups b s ↔ a = b ∧ t = s := by
  simp [Pat.groups]

theorem Plot.mem_word {ws : List (List Char)} {s t a : List Char} : (a, t) ∈ word ws s ↔ a ∈ ws ∧ s = a ++ t := by
  simp only [word, List.mem_flatMap]
  constructor
  · rintro ⟨w, hw, h⟩
    split_ifs at h with hp
    · rw [List.mem_singleton, Prod.mk.injEq] at h
      obtain ⟨rfl, rfl⟩ := h
      obtain ⟨u, rfl⟩ := List.isPrefixOf_iff_prefix.1 hp
      simp [hw]
    · simp at h
  · rintro ⟨ha, rfl⟩
    refine ⟨a, ha, ?_⟩
    rw [if_pos (List.isPrefixOf_iff_prefix.2 ⟨t, rfl⟩)]
    simp

theorem Plot.mem_star {c : Char → Bool} {s t a : List Char} : (a, t) ∈ star c s ↔ s = a ++ t ∧ ∀ x ∈ a, c x = true := by
  induction s generalizing a with
  | nil => simp only [star, List.mem_singleton, Prod.mk.injEq, eq_comm (a := ([] : List Char)), List.append_eq_nil_iff]
           constructor
           · rintro ⟨rfl, rfl⟩; simp
           · rintro ⟨⟨rfl, rfl⟩, _⟩; simp
  | cons y s ih =>
    have hz : ∀ a t : List Char, (a, t) ∈ [(([] : List Char), y :: s)] ↔ a = [] ∧ t = y :: s := by simp
    unfold star
    cases a with
    | nil =>
      have hn : (y :: s = [] ++ t ∧ ∀ x ∈ ([] : List Char), c x = true) ↔ t = y :: s :=
        ⟨fun h => h.1.symm, fun h => ⟨h.symm, nofun⟩⟩
      rw [hn]
      split_ifs
      · simp only [List.mem_append, List.mem_map, Prod.exists, Prod.mk.injEq, hz]
        constructor
        · rintro (⟨_, _, _, h, _⟩ | h)
          · cases h
          · exact h.2
        · exact fun h => .inr ⟨trivial, h⟩
      · rw [hz]; exact and_iff_right rfl
    | cons z a =>
      split_ifs with hc
      · simp only [List.mem_append, List.mem_map, Prod.exists, Prod.mk.injEq, hz, List.cons_append, List.cons.injEq,
          List.mem_cons]
        constructor
        · rintro (⟨b, u, hb, ⟨rfl, rfl⟩, rfl⟩ | h)
          · obtain ⟨rfl, h2⟩ := ih.1 hb
            exact ⟨⟨rfl, rfl⟩, by rintro x (rfl | hx); exacts [hc, h2 x hx]⟩
          · simp at h
        · rintro ⟨⟨rfl, rfl⟩, h⟩
          exact .inl ⟨a, t, ih.2 ⟨rfl, fun x hx => h x (.inr hx)⟩, ⟨rfl, rfl⟩, rfl⟩
      · simp only [hz, List.cons_append, List.cons.injEq, List.mem_cons]
        constructor
        · simp
        · rintro ⟨⟨rfl, _⟩, h⟩
          exact absurd (h y (.inl rfl)) hc

theorem Plot.mem_plus {c : Char → Bool} {s t a : List Char} :
    (a, t) ∈ plus c s ↔ s = a ++ t ∧ (∀ x ∈ a, c x = true) ∧ a ≠ [] := by
  simp only [plus, List.mem_filter, Plot.mem_star, and_assoc]
  cases a <;> simp

theorem Plot.mem_opt {γ : Type} {p : Pat γ} {s t : List Char} {a : Option γ} :
    (a, t) ∈ opt p s ↔ (∃ b, a = some b ∧ (b, t) ∈ p s) ∨ (a = none ∧ t = s) := by
  simp only [opt, List.mem_append, List.mem_map, Prod.exists, Prod.mk.injEq, List.mem_singleton]
  constructor
  · rintro (⟨b, u, h, rfl, rfl⟩ | h)
    · exact .inl ⟨b, rfl, h⟩
    · exact .inr h
  · rintro (⟨b, rfl, h⟩ | h)
    · exact .inl ⟨b, t, h, rfl, rfl⟩
    · exact .inr h

theorem Plot.mem_eos {s t : List Char} {u : Unit} : (u, t) ∈ eos s ↔ t = s ∧ (s = [] ∨ s = ['\n']) := by
  unfold eos
  split_ifs with h
  · simp [h]
  · simp [h]

theorem Plot.first_eq {γ : Type} {p : Pat γ} {s : List Char} {m : γ} (h : ∃ t, (m, t) ∈ p s)
    (hu : ∀ m' t', (m', t') ∈ p s → m' = m) : p.first s = some m := by
  unfold Pat.first
  obtain ⟨t, ht⟩ := h
  cases hp : p s with
  | nil => rw [hp] at ht; simp at ht
  | cons e l =>
    have := hu e.1 e.2 (by rw [hp]; simp)
    simp [this]

theorem Plot.first_isSome {γ : Type} {p : Pat γ} {s : List Char} : (p.first s).isSome = true ↔ ∃ m t, (m, t) ∈ p s := by
  unfold Pat.first
  cases p s with
  | nil => simp
  | cons e l => exact ⟨fun _ => ⟨e.1, e.2, by simp⟩, fun _ => rfl⟩

/-- A string with a slash is cut at its first one, or at a later one. -/
theorem split_slash {a a' b b' : List Char} (ha : '/' ∉ a) (h : a ++ '/' :: b = a' ++ '/' :: b') :
    (a = a' ∧ b = b') ∨ ∃ c, a' = a ++ '/' :: c ∧ b = c ++ '/' :: b' := by
  rcases List.append_eq_append_iff.1 h with ⟨e, h1, h2⟩ | ⟨e, h1, h2⟩
  · cases e with
    | nil => left; simp_all
    | cons x e =>
      right
      simp only [List.cons_append, List.cons.injEq] at h2
      exact ⟨e, by rw [h1, h2.1], h2.2⟩
  · cases e with
    | nil => left; simp_all
    | cons x e =>
      simp only [List.cons_append, List.cons.injEq] at h2
      exact absurd (by rw [h1, ← h2.1]; simp) ha

/-- No digit at the beginning. -/
def NoDigit (w : List Char) : Prop := ∀ c ∈ w.head?, c.isDigit = false

theorem split_digits {x x' w w' : List Char} (hx : ∀ c ∈ x, c.isDigit = true) (hx' : ∀ c ∈ x', c.isDigit = true)
    (hw : NoDigit w) (hw' : NoDigit w') (h : x ++ w = x' ++ w') : x = x' ∧ w = w' := by
  induction x generalizing x' with
  | nil =>
    cases x' with
    | nil => exact ⟨rfl, h⟩
    | cons c x' =>
      have h : w = c :: (x' ++ w') := h
      subst h
      have := hw c (by simp)
      rw [hx' c (by simp)] at this
      cases this
  | cons c x ih =>
    cases x' with
    | nil =>
      have h : c :: (x ++ w) = w' := h
      subst h
      have := hw' c (by simp)
      rw [hx c (by simp)] at this
      cases this
    | cons c' x' =>
      simp only [List.cons_append, List.cons.injEq] at h
      obtain ⟨h1, h2⟩ := ih (fun c hc => hx c (by simp [hc])) (fun c hc => hx' c (by simp [hc])) h.2
      exact ⟨by rw [h.1, h1], h2⟩

/-! ## The names of the benchmarks -/

/-- What a benchmark measures. -/
inductive Kind
  | build | knn | nn | radius | box
  deriving DecidableEq

/-- How the method of the benchmark begins. -/
def Kind.text : Kind → List Char
  | .build => ['B', 'u', 'i', 'l', 'd']
  | .knn => ['K', 'n', 'n']
  | .nn => ['N', 'n']
  | .radius => ['R', 'a', 'd', 'i', 'u', 's']
  | .box => ['B', 'o', 'x']

/-- What the benchmark library appends: nothing to a run, the name of the statistic to the summary of repeated ones. -/
inductive Suffix
  | run | mean | median | stddev | cv
  deriving DecidableEq

/-- The text that is appended. -/
def Suffix.text : Suffix → List Char
  | .run => []
  | .mean => ['_', 'm', 'e', 'a', 'n']
  | .median => ['_', 'm', 'e', 'd', 'i', 'a', 'n']
  | .stddev => ['_', 's', 't', 'd', 'd', 'e', 'v']
  | .cv => ['_', 'c', 'v']

/-- A benchmark of the repository: the class `Bm<tree>`, the method `<kind><type>` and one or two arguments. -/
structure Measured where
  tree : List Char
  kind : Kind
  type : List Char
  x : Nat
  arg : Option Nat

/-- The names in a C++ program have no slash and no newline, and the type of the benchmarks begins with `Ct` or `Rt`. -/
structure Measured.Ok (r : Measured) : Prop where
  tree_ne : r.tree ≠ []
  tree_mem : ∀ c ∈ r.tree, c ≠ '/' ∧ c ≠ '\n'
  type_mem : ∀ c ∈ r.type, c ≠ '/' ∧ c ≠ '\n'
  type_eq : ∃ w, r.type = 'C' :: 't' :: w ∨ r.type = 'R' :: 't' :: w

/-- The second argument as text. -/
def Measured.argText (r : Measured) : List Char :=
  match r.arg with
  | some a => '/' :: Nat.toDigits 10 a
  | none => []

/-- Everything after the method. -/
def Measured.rest (r : Measured) (f : Suffix) : List Char := Nat.toDigits 10 r.x ++ (r.argText ++ f.text)

/-- The name in the JSON file: class, method and arguments with slashes in between. -/
def Measured.name (r : Measured) (f : Suffix) : List Char :=
  'B' :: 'm' :: (r.tree ++ '/' :: (r.kind.text ++ r.type ++ '/' :: r.rest f))

theorem digits_isDigit (n : Nat) : ∀ c ∈ Nat.toDigits 10 n, c.isDigit = true := fun _ hc =>
  Nat.isDigit_of_mem_toDigits (by decide) (by decide) hc

theorem digits_no_slash (n : Nat) : '/' ∉ Nat.toDigits 10 n := fun h => by
  have := digits_isDigit n _ h
  revert this
  decide

/-- Begins with a digit. -/
def BeginsDigit (w : List Char) : Prop := ∃ c u, w = c :: u ∧ c.isDigit = true

theorem digits_begin (n : Nat) (w : List Char) : BeginsDigit (Nat.toDigits 10 n ++ w) := by
  cases h : Nat.toDigits 10 n with
  | nil => exact absurd h Nat.toDigits_ne_nil
  | cons c u => exact ⟨c, u ++ w, rfl, digits_isDigit n c (by rw [h]; simp)⟩

theorem suffix_no_slash (f : Suffix) : '/' ∉ f.text := by cases f <;> decide

theorem suffix_noDigit (f : Suffix) : NoDigit f.text := by cases f <;> simp only [NoDigit, Suffix.text] <;> decide

/-- After every slash in the arguments there is a digit. -/
theorem rest_slash (r : Measured) (f : Suffix) {c z : List Char} (h : r.rest f = c ++ '/' :: z) : BeginsDigit z := by
  unfold Measured.rest Measured.argText at h
  cases ha : r.arg with
  | none =>
    rw [ha] at h
    have : '/' ∈ Nat.toDigits 10 r.x ++ ([] ++ f.text) := by rw [h]; simp
    simp [digits_no_slash, suffix_no_slash] at this
  | some a =>
    rw [ha] at h
    rcases split_slash (digits_no_slash r.x) h with ⟨_, rfl⟩ | ⟨d, _, h2⟩
    · exact digits_begin a _
    · have h2 : Nat.toDigits 10 a ++ f.text = d ++ '/' :: z := h2
      have : '/' ∈ Nat.toDigits 10 a ++ f.text := by rw [h2]; simp
      simp [digits_no_slash, suffix_no_slash] at this

theorem kind_text_ne (k : Kind) : ∃ c w, k.text = c :: w ∧ c.isDigit = false := by
  cases k <;> exact ⟨_, _, rfl, by decide⟩

theorem not_begins {c : Char} {w : List Char} (hc : c.isDigit = false) : ¬ BeginsDigit (c :: w) := by
  rintro ⟨c', u, h, h'⟩
  simp only [List.cons.injEq] at h
  rw [← h.1, hc] at h'
  cases h'

variable {r : Measured}

theorem Measured.Ok.method_no_slash (h : r.Ok) : '/' ∉ r.kind.text ++ r.type := by
  rw [List.mem_append, not_or]
  exact ⟨by cases r.kind <;> decide, fun hm => (h.type_mem _ hm).1 rfl⟩

/-- The only slash that is not followed by a digit is the one before the method. -/
theorem name_slash (h : r.Ok) {f : Suffix} {a z : List Char} (hz : ¬ BeginsDigit z)
    (e : r.tree ++ '/' :: (r.kind.text ++ r.type ++ '/' :: r.rest f) = a ++ '/' :: z) :
    a = r.tree ∧ z = r.kind.text ++ r.type ++ '/' :: r.rest f := by
  rcases split_slash (fun hm => (h.tree_mem _ hm).1 rfl) e with ⟨h1, h2⟩ | ⟨c, _, h2⟩
  · exact ⟨h1.symm, h2.symm⟩
  · rcases split_slash h.method_no_slash h2 with ⟨_, h3⟩ | ⟨c', _, h3⟩
    · exact absurd (h3 ▸ digits_begin r.x _) hz
    · exact absurd (rest_slash r f h3) hz

theorem kind_ne_box {k : Kind} (hk : k ≠ .box) :
    k.text ∈ [['B', 'u', 'i', 'l', 'd'], ['K', 'n', 'n'], ['N', 'n'], ['R', 'a', 'd', 'i', 'u', 's']] := by
  cases k <;> first | exact absurd rfl hk | decide

/-- C150: the groups of the pattern are the parts of the name. -/
theorem c150_match (h : r.Ok) (hk : r.kind ≠ .box) {f : Suffix} (hf : f = .run ∨ f = .mean) :
    reInfo.first (r.name f) = some ⟨r.tree, r.type, Nat.toDigits 10 r.x, r.arg.map (Nat.toDigits 10)⟩ := by
  obtain ⟨w, hw⟩ := h.type_eq
  apply Plot.first_eq
  · have hct : ∃ ct ∈ [['C', 't'], ['R', 't']], r.type = ct ++ w := by
      rcases hw with hw | hw
      · exact ⟨['C', 't'], by simp, hw⟩
      · exact ⟨['R', 't'], by simp, hw⟩
    obtain ⟨ct, hct, hty⟩ := hct
    refine ⟨[], ?_⟩
    unfold reInfo
    rw [Plot.mem_bind]
    refine ⟨_, _, Plot.mem_word.2 ⟨List.mem_singleton.2 rfl, rfl⟩, ?_⟩
    rw [Plot.mem_bind]
    refine ⟨r.tree, '/' :: (r.kind.text ++ r.type ++ '/' :: r.rest f), Plot.mem_plus.2 ⟨rfl, fun c hc => ?_, h.tree_ne⟩, ?_⟩
    · simpa [dot] using (h.tree_mem c hc).2
    rw [Plot.mem_bind]
    refine ⟨_, _, Plot.mem_word.2 ⟨List.mem_singleton.2 rfl, rfl⟩, ?_⟩
    rw [Plot.mem_bind]
    refine ⟨r.kind.text, r.type ++ '/' :: r.rest f, Plot.mem_word.2 ⟨kind_ne_box hk, by simp⟩, ?_⟩
    rw [Plot.mem_bind]
    refine ⟨ct, w ++ '/' :: r.rest f, Plot.mem_word.2 ⟨hct, by rw [hty]; simp⟩, ?_⟩
    rw [Plot.mem_bind]
    refine ⟨w, '/' :: r.rest f, Plot.mem_star.2 ⟨rfl, fun c hc => ?_⟩, ?_⟩
    · have := (h.type_mem c (by rw [hty]; simp [hc])).1
      simpa [notSlash] using this
    rw [Plot.mem_bind]
    refine ⟨_, _, Plot.mem_word.2 ⟨List.mem_singleton.2 rfl, rfl⟩, ?_⟩
    rw [Plot.mem_bind]
    refine ⟨Nat.toDigits 10 r.x, r.argText ++ f.text, Plot.mem_plus.2 ⟨rfl, digits_isDigit _, Nat.toDigits_ne_nil⟩, ?_⟩
    rw [Plot.mem_bind]
    refine ⟨r.arg.map (Nat.toDigits 10), f.text, Plot.mem_opt.2 ?_, ?_⟩
    · unfold Measured.argText
      cases r.arg with
      | none => exact .inr ⟨rfl, rfl⟩
      | some a =>
        refine .inl ⟨_, rfl, Plot.mem_bind.2 ⟨_, _, Plot.mem_word.2 ⟨List.mem_singleton.2 rfl, rfl⟩, ?_⟩⟩
        exact Plot.mem_plus.2 ⟨rfl, digits_isDigit _, Nat.toDigits_ne_nil⟩
    rw [Plot.mem_bind]
    have heos : ∀ x : Option (List Char), ((⟨r.tree, r.type, Nat.toDigits 10 r.x, r.arg.map (Nat.toDigits 10)⟩ : Info), []) ∈
        (eos.bind fun _ => Pat.groups ⟨r.tree, ct ++ w, Nat.toDigits 10 r.x, r.arg.map (Nat.toDigits 10)⟩) [] := fun _ =>
      Plot.mem_bind.2 ⟨(), [], Plot.mem_eos.2 ⟨rfl, .inl rfl⟩, Plot.mem_groups.2 ⟨by rw [hty], rfl⟩⟩
    rcases hf with rfl | rfl
    · exact ⟨none, [], Plot.mem_opt.2 (.inr ⟨rfl, rfl⟩), heos none⟩
    · exact ⟨some ['_', 'm', 'e', 'a', 'n'], [], Plot.mem_opt.2 (.inl ⟨_, rfl, Plot.mem_word.2 ⟨by simp, rfl⟩⟩), heos none⟩
  · intro m t hm
    unfold reInfo at hm
    simp only [Plot.mem_bind, Plot.mem_word, List.mem_singleton, Plot.mem_plus, Plot.mem_star, Plot.mem_opt, Plot.mem_eos,
      Plot.mem_groups] at hm
    obtain ⟨_, u1, ⟨rfl, e1⟩, tree, u2, ⟨rfl, _, _⟩, _, u3, ⟨rfl, rfl⟩, k, u4, ⟨hk', rfl⟩, ct, u5, ⟨hct, rfl⟩, ty, u6,
      ⟨rfl, hty⟩, _, u7, ⟨rfl, rfl⟩, x, u8, ⟨rfl, hx, _⟩, arg, u9, harg, mean, u10, hmean, _, u11, ⟨rfl, heos⟩, rfl, rfl⟩ := hm
    have e2 : r.tree ++ '/' :: (r.kind.text ++ r.type ++ '/' :: r.rest f) =
        tree ++ '/' :: (k ++ (ct ++ (ty ++ '/' :: (x ++ u8)))) := by
      simpa [Measured.name] using e1
    have hkd : ¬ BeginsDigit (k ++ (ct ++ (ty ++ '/' :: (x ++ u8)))) := by
      simp only [List.mem_cons, List.not_mem_nil, or_false] at hk'
      rcases hk' with rfl | rfl | rfl | rfl <;> exact not_begins (by decide)
    obtain ⟨rfl, e3⟩ := name_slash h hkd e2
    have e3 : (r.kind.text ++ r.type) ++ '/' :: r.rest f = (k ++ (ct ++ ty)) ++ '/' :: (x ++ u8) := by
      rw [← e3]; simp
    have hno : '/' ∉ k ++ (ct ++ ty) := by
      simp only [List.mem_append, not_or]
      simp only [List.mem_cons, List.not_mem_nil, or_false] at hk' hct
      refine ⟨?_, ?_, fun hm => ?_⟩
      · rcases hk' with rfl | rfl | rfl | rfl <;> decide
      · rcases hct with rfl | rfl <;> decide
      · have := hty _ hm
        simp [notSlash] at this
    obtain ⟨e4, e5⟩ : r.kind.text ++ r.type = k ++ (ct ++ ty) ∧ r.rest f = x ++ u8 := by
      rcases split_slash h.method_no_slash e3 with h' | ⟨c, h', _⟩
      · exact h'
      · exact absurd (by rw [h']; simp) hno
    have e6 : r.type = ct ++ ty := by
      simp only [List.mem_cons, List.not_mem_nil, or_false] at hk'
      rcases hk' with rfl | rfl | rfl | rfl <;> cases hkk : r.kind <;> rw [hkk] at e4 <;>
        simp [Kind.text] at e4 <;> exact e4
    have hu9 : NoDigit u9 := by
      rcases hmean with ⟨b, rfl, rfl, rfl⟩ | ⟨rfl, rfl⟩
      · simp only [NoDigit]; simp
      · rcases heos with rfl | rfl
        · simp [NoDigit]
        · simp only [NoDigit]; simp
    have hnd : NoDigit (r.argText ++ f.text) := by
      unfold Measured.argText
      cases r.arg with
      | none => exact suffix_noDigit f
      | some a => simp only [NoDigit]; simp
    have hu8 : NoDigit u8 := by
      rcases harg with ⟨b, rfl, _, _, ⟨rfl, rfl⟩, rfl, _, _⟩ | ⟨rfl, rfl⟩
      · simp only [NoDigit]; simp
      · exact hu9
    obtain ⟨e7, e8⟩ := split_digits (digits_isDigit r.x) hx hnd hu8 e5
    have e9 : r.arg.map (Nat.toDigits 10) = arg := by
      unfold Measured.argText at e8
      cases ha : r.arg with
      | none =>
        rw [ha] at e8
        rcases harg with ⟨b, rfl, _, _, ⟨rfl, rfl⟩, rfl, _, _⟩ | ⟨rfl, rfl⟩
        · exact absurd (by rw [show f.text = _ from e8]; simp) (suffix_no_slash f)
        · rfl
      | some a =>
        rw [ha] at e8
        have e8 : '/' :: (Nat.toDigits 10 a ++ f.text) = u8 := e8
        rcases harg with ⟨b, rfl, _, _, ⟨rfl, rfl⟩, rfl, hb, _⟩ | ⟨rfl, rfl⟩
        · simp only [List.cons_append, List.nil_append, List.cons.injEq, true_and] at e8
          rw [Option.map_some, (split_digits (digits_isDigit a) hb (suffix_noDigit f) hu9 e8).1]
        · rcases hmean with ⟨b, rfl, rfl, rfl⟩ | ⟨rfl, rfl⟩
          · simp at e8
          · rcases heos with rfl | rfl <;> simp at e8
    rw [e6, e7, e9]

/-- The categories: a pattern of words matches exactly the names whose kind begins so. -/
theorem c150_category (h : r.Ok) (f : Suffix) {ws : List Kind} :
    ((reCategory (ws.map Kind.text)).first (r.name f)).isSome = true ↔ r.kind ∈ ws := by
  rw [Plot.first_isSome]
  simp only [reCategory, Plot.mem_bind, Plot.mem_word, List.mem_singleton, Plot.mem_plus, Plot.mem_groups]
  obtain ⟨w, hw⟩ := h.type_eq
  constructor
  · rintro ⟨_, _, a, u1, ⟨e1, _, ha⟩, _, u2, ⟨rfl, rfl⟩, k, u3, ⟨hk, rfl⟩, b, u4, ⟨rfl, _, hb⟩, _, _⟩
    obtain ⟨k, hk0, rfl⟩ := List.mem_map.1 hk
    have hkd : ¬ BeginsDigit (k.text ++ (b ++ u4)) := by
      obtain ⟨c, w', e, hc⟩ := kind_text_ne k
      rw [e]; exact not_begins hc
    have e2 : ∃ a', r.tree ++ '/' :: (r.kind.text ++ r.type ++ '/' :: r.rest f) = a' ++ '/' :: (k.text ++ (b ++ u4)) := by
      unfold Measured.name at e1
      cases a with
      | nil => exact absurd rfl ha
      | cons c a =>
        cases a with
        | nil => simp at e1
        | cons c' a =>
          refine ⟨a, ?_⟩
          simp only [List.cons_append, List.nil_append, List.cons.injEq] at e1
          exact e1.2.2
    obtain ⟨a', e2⟩ := e2
    obtain ⟨_, e3⟩ := name_slash h hkd e2
    have : k = r.kind := by
      rcases hw with hw | hw <;> rw [hw] at e3 <;> cases k <;> cases hkk : r.kind <;> rw [hkk] at e3 <;>
        first | rfl | simp [Kind.text] at e3
    rw [← this]; exact hk0
  · intro hk
    obtain ⟨c, v, hty, hc⟩ : ∃ c v, r.type = c :: v ∧ c ≠ '\n' := by
      rcases hw with hw | hw
      · exact ⟨_, _, hw, by decide⟩
      · exact ⟨_, _, hw, by decide⟩
    refine ⟨(), v ++ '/' :: r.rest f, 'B' :: 'm' :: r.tree, _, ⟨rfl, ?_, by simp⟩, _, _, ⟨rfl, rfl⟩, r.kind.text,
      r.type ++ '/' :: r.rest f, ⟨List.mem_map_of_mem hk, by simp⟩, [c], v ++ '/' :: r.rest f,
      ⟨by rw [hty]; simp, by simpa [dot] using hc, by simp⟩, trivial, rfl⟩
    intro x hx
    simp only [List.mem_cons] at hx
    rcases hx with rfl | rfl | hx
    · decide
    · decide
    · simpa [dot] using (h.tree_mem x hx).2

theorem mean_isSuffix (r : Measured) (f : Suffix) : ['_', 'm', 'e', 'a', 'n'].isSuffixOf (r.name f) = true ↔ f = .mean := by
  rw [List.isSuffixOf_iff_suffix]
  constructor
  · rintro ⟨p, hp⟩
    obtain ⟨W, hW⟩ : ∃ W, r.name f = W ++ f.text ∧ ∃ V c, W = V ++ [c] ∧ c.isDigit = true := by
      refine ⟨'B' :: 'm' :: (r.tree ++ '/' :: (r.kind.text ++ r.type ++ '/' :: (Nat.toDigits 10 r.x ++ r.argText))),
        by simp [Measured.name, Measured.rest], ?_⟩
      have hd : ∀ n, ∃ V c, Nat.toDigits 10 n = V ++ [c] ∧ c.isDigit = true := fun n =>
        ⟨_, _, (List.dropLast_append_getLast (Nat.toDigits_ne_nil (n := n) (b := 10))).symm,
          digits_isDigit n _ (List.getLast_mem _)⟩
      unfold Measured.argText
      cases r.arg with
      | none =>
        obtain ⟨V, c, e, hc⟩ := hd r.x
        exact ⟨'B' :: 'm' :: (r.tree ++ '/' :: (r.kind.text ++ r.type ++ '/' :: V)), c, by rw [e]; simp, hc⟩
      | some a =>
        obtain ⟨V, c, e, hc⟩ := hd a
        exact ⟨'B' :: 'm' :: (r.tree ++ '/' :: (r.kind.text ++ r.type ++ '/' :: (Nat.toDigits 10 r.x ++ '/' :: V))), c,
          by simp only [e]; simp, hc⟩
    obtain ⟨hW, V, c, rfl, hc⟩ := hW
    rw [hW] at hp
    have hp := congrArg List.reverse hp
    cases f with
    | mean => rfl
    | run =>
      simp only [Suffix.text, List.append_nil, List.reverse_append, List.reverse_cons, List.reverse_nil, List.nil_append,
        List.cons_append, List.cons.injEq] at hp
      rw [← hp.1] at hc
      exact absurd hc (by decide)
    | median => simp [Suffix.text] at hp
    | stddev => simp [Suffix.text] at hp
    | cv => simp [Suffix.text] at hp
  · rintro rfl
    refine ⟨'B' :: 'm' :: (r.tree ++ '/' :: (r.kind.text ++ r.type ++ '/' :: (Nat.toDigits 10 r.x ++ r.argText))), ?_⟩
    simp [Measured.name, Measured.rest, Suffix.text]

/-! ## The plots -/

/-- The label of the line on which a measurement is shown. -/
def Measured.label (r : Measured) : List Char :=
  r.tree ++ '_' :: r.type ++ (match r.arg with
    | some a => '_' :: Nat.toDigits 10 a
    | none => [])

theorem key_eq (r : Measured) : key ⟨r.tree, r.type, Nat.toDigits 10 r.x, r.arg.map (Nat.toDigits 10)⟩ = r.label := by
  unfold key Measured.label
  cases r.arg with
  | none => rfl
  | some a =>
    have : (Nat.toDigits 10 a).isEmpty = false := by
      cases h : Nat.toDigits 10 a with
      | nil => exact absurd h Nat.toDigits_ne_nil
      | cons => rfl
    simp [this]

/-- A report: what was measured, whether it is a run or a statistic, and the time. -/
abbrev Report (τ : Type) := Measured × Suffix × τ

/-- The entry of the JSON file. -/
def Report.bench {τ : Type} (b : Report τ) : Bench τ := (b.1.name b.2.1, b.2.2)

/-- A plot shows the reports: one line per label, with the points of the reports of that label in their order. -/
structure Shows {τ : Type} (bs : List (Report τ)) (p : Plots τ) : Prop where
  nodup : (p.map (·.1)).Nodup
  labels : ∀ k, k ∈ p.map (·.1) ↔ ∃ b ∈ bs, b.1.label = k
  points : ∀ e ∈ p, e.2.1 = (bs.filter fun b => b.1.label = e.1).map (fun b => b.1.x) ∧
    e.2.2 = (bs.filter fun b => b.1.label = e.1).map (fun b => b.2.2)

variable {τ : Type}

theorem set_keys (k : List Char) (ps : Plots τ) :
    (∀ k', k' ∈ (ps.set k).map (·.1) ↔ k' = k ∨ k' ∈ ps.map (·.1)) ∧
    ((ps.map (·.1)).Nodup → ((ps.set k).map (·.1)).Nodup) ∧
    ((∀ e ∈ ps, e.2.1 = [] ∧ e.2.2 = []) → ∀ e ∈ ps.set k, e.2.1 = [] ∧ e.2.2 = []) := by
  induction ps with
  | nil => simp [Plots.set]
  | cons e ps ih =>
    unfold Plots.set
    split_ifs with h
    · refine ⟨fun k' => ?_, fun hn => ?_, fun he x hx => ?_⟩
      · simp [h]
      · simpa [h] using hn
      · rcases List.mem_cons.1 hx with rfl | hx
        · exact ⟨rfl, rfl⟩
        · exact he x (by simp [hx])
    · obtain ⟨h1, h2, h3⟩ := ih
      refine ⟨fun k' => ?_, fun hn => ?_, fun he x hx => ?_⟩
      · rw [List.map_cons, List.mem_cons, h1, List.map_cons, List.mem_cons]
        exact or_left_comm
      · rw [List.map_cons, List.nodup_cons] at hn ⊢
        refine ⟨fun hm => ?_, h2 hn.2⟩
        rcases (h1 _).1 hm with h' | h'
        · exact h h'
        · exact hn.1 h'
      · rcases List.mem_cons.1 hx with rfl | hx
        · exact he _ (by simp)
        · exact h3 (fun e he' => he e (by simp [he'])) x hx

theorem add_points (k : List Char) (x : Nat) (y : τ) (ps : Plots τ) (hk : k ∈ ps.map (·.1)) (hn : (ps.map (·.1)).Nodup) :
    ∃ ps', ps.add k x y = some ps' ∧ ps'.map (·.1) = ps.map (·.1) ∧
      ∀ e ∈ ps', (e.1 ≠ k ∧ e ∈ ps) ∨ (e.1 = k ∧ ∃ e0 ∈ ps, e0.1 = k ∧ e.2.1 = e0.2.1 ++ [x] ∧ e.2.2 = e0.2.2 ++ [y]) := by
  induction ps with
  | nil => simp at hk
  | cons e ps ih =>
    unfold Plots.add
    rw [List.map_cons, List.nodup_cons] at hn
    split_ifs with h
    · refine ⟨_, rfl, rfl, fun e' he' => ?_⟩
      rcases List.mem_cons.1 he' with rfl | he'
      · exact .inr ⟨h, e, by simp, h, rfl, rfl⟩
      · refine .inl ⟨fun hc => hn.1 ?_, by simp [he']⟩
        rw [h, ← hc]
        exact List.mem_map_of_mem he'
    · have hk' : k ∈ ps.map (·.1) := by
        rcases List.mem_cons.1 hk with hk | hk
        · exact absurd hk.symm h
        · exact hk
      obtain ⟨ps', h1, h2, h3⟩ := ih hk' hn.2
      refine ⟨e :: ps', by rw [h1]; rfl, by rw [List.map_cons, h2, List.map_cons], fun e' he' => ?_⟩
      rcases List.mem_cons.1 he' with rfl | he'
      · exact .inl ⟨h, by simp⟩
      · rcases h3 e' he' with ⟨g1, g2⟩ | ⟨g1, e0, g2, g3⟩
        · exact .inl ⟨g1, by simp [g2]⟩
        · exact .inr ⟨g1, e0, by simp [g2], g3⟩

/-- What `create_plots` is called with. -/
def Plottable (b : Report τ) : Prop := b.1.Ok ∧ b.1.kind ≠ .box ∧ (b.2.1 = .run ∨ b.2.1 = .mean)

theorem plottable_match {b : Report τ} (h : Plottable b) :
    ∃ m, reInfo.first b.bench.1 = some m ∧ key m = b.1.label ∧ Nat.ofDigitChars 10 m.x 0 = b.1.x :=
  ⟨_, c150_match h.1 h.2.1 h.2.2, key_eq _, Nat.ofDigitChars_ten_toDigits⟩

/-- C150: the plot of a category shows its reports. -/
theorem c150_shows (bs : List (Report τ)) (h : ∀ b ∈ bs, Plottable b) :
    ∃ p, createPlots (bs.map Report.bench) = some p ∧ Shows bs p := by
  have first : ∀ (bs : List (Report τ)) (ps : Plots τ), (∀ b ∈ bs, Plottable b) → (ps.map (·.1)).Nodup →
      (∀ e ∈ ps, e.2.1 = [] ∧ e.2.2 = []) → ∃ p, createLabels (bs.map Report.bench) ps = some p ∧
        (p.map (·.1)).Nodup ∧ (∀ e ∈ p, e.2.1 = [] ∧ e.2.2 = []) ∧
        ∀ k, k ∈ p.map (·.1) ↔ (∃ b ∈ bs, b.1.label = k) ∨ k ∈ ps.map (·.1) := by
    intro bs
    induction bs with
    | nil => intro ps _ h1 h2; exact ⟨ps, rfl, h1, h2, by simp⟩
    | cons b bs ih =>
      intro ps hb h1 h2
      obtain ⟨m, e1, e2, _⟩ := plottable_match (hb b (by simp))
      obtain ⟨s1, s2, s3⟩ := set_keys b.1.label ps
      obtain ⟨p, g1, g2, g3, g4⟩ := ih (ps.set b.1.label) (fun b hb' => hb b (by simp [hb'])) (s2 h1) (s3 h2)
      refine ⟨p, ?_, g2, g3, fun k => ?_⟩
      · simp only [List.map_cons, createLabels, e1, e2]; exact g1
      · rw [g4, s1]
        simp only [List.mem_cons, exists_eq_or_imp]
        constructor
        · rintro (h | h | h)
          · exact .inl (.inr h)
          · exact .inl (.inl h.symm)
          · exact .inr h
        · rintro ((h | h) | h)
          · exact .inr (.inl h.symm)
          · exact .inl h
          · exact .inr (.inr h)
  have second : ∀ (bs done : List (Report τ)) (ps : Plots τ), (∀ b ∈ bs, Plottable b) → (ps.map (·.1)).Nodup →
      (∀ b ∈ bs, b.1.label ∈ ps.map (·.1)) →
      (∀ e ∈ ps, e.2.1 = (done.filter fun b => b.1.label = e.1).map (fun b => b.1.x) ∧
        e.2.2 = (done.filter fun b => b.1.label = e.1).map (fun b => b.2.2)) →
      ∃ p, createPoints (bs.map Report.bench) ps = some p ∧ p.map (·.1) = ps.map (·.1) ∧
        ∀ e ∈ p, e.2.1 = ((done ++ bs).filter fun b => b.1.label = e.1).map (fun b => b.1.x) ∧
          e.2.2 = ((done ++ bs).filter fun b => b.1.label = e.1).map (fun b => b.2.2) := by
    intro bs
    induction bs with
    | nil => intro done ps _ _ _ h; exact ⟨ps, rfl, rfl, by simpa using h⟩
    | cons b bs ih =>
      intro done ps hb hn hk hp
      obtain ⟨m, e1, e2, e3⟩ := plottable_match (hb b (by simp))
      obtain ⟨ps', a1, a2, a3⟩ := add_points b.1.label b.1.x b.2.2 ps (hk b (by simp)) hn
      obtain ⟨p, g1, g2, g3⟩ := ih (done ++ [b]) ps' (fun b hb' => hb b (by simp [hb'])) (a2 ▸ hn)
        (fun b hb' => a2 ▸ hk b (by simp [hb'])) (fun e he => by
          rcases a3 e he with ⟨n1, n2⟩ | ⟨n1, e0, n2, n3, n4, n5⟩
          · have hne : ¬ b.1.label = e.1 := fun h => n1 h.symm
            simpa [List.filter_append, hne] using hp e n2
          · obtain ⟨q1, q2⟩ := hp e0 n2
            rw [n4, n5, q1, q2, n3, n1]
            simp [List.filter_append])
      refine ⟨p, ?_, g2.trans a2, by simpa using g3⟩
      simp only [List.map_cons, createPoints, e1, e2, e3]
      rw [show (Report.bench b).2 = b.2.2 from rfl, a1]
      exact g1
  obtain ⟨p, f1, f2, f3, f4⟩ := first bs [] h (by simp) (by simp)
  obtain ⟨p', s1, s2, s3⟩ := second bs [] p h f2 (fun b hb => (f4 _).2 (.inl ⟨b, hb, rfl⟩)) (fun e he => by
    simpa using f3 e he)
  refine ⟨p', ?_, s2 ▸ f2, fun k => ?_, by simpa using s3⟩
  · unfold createPlots
    rw [f1]
    exact s1
  · rw [s2, f4]
    simp

/-- The reports that are shown: the means, if there are any. -/
def shown (bs : List (Report τ)) : List (Report τ) :=
  if ∃ b ∈ bs, b.2.1 = .mean then bs.filter fun b => b.2.1 = .mean else bs

/-- C150: the three plots show the shown reports of their kinds, and nothing else. -/
theorem c150_plots (bs : List (Report τ)) (h : ∀ b ∈ bs, b.1.Ok)
    (hrun : (∀ b ∈ bs, b.2.1 ≠ .mean) → ∀ b ∈ bs, b.2.1 = .run) :
    ∃ build knn radius, plots (bs.map Report.bench) = some [build, knn, radius] ∧
      Shows ((shown bs).filter fun b => b.1.kind = .build) build ∧
      Shows ((shown bs).filter fun b => b.1.kind = .knn ∨ b.1.kind = .nn) knn ∧
      Shows ((shown bs).filter fun b => b.1.kind = .radius) radius := by
  have hmean : (bs.map Report.bench).filter (fun b => ['_', 'm', 'e', 'a', 'n'].isSuffixOf b.1) =
      (bs.filter fun b => b.2.1 = .mean).map Report.bench := by
    rw [List.filter_map]
    congr 1
    apply List.filter_congr
    intro b _
    rw [Bool.eq_iff_iff, decide_eq_true_eq]
    exact mean_isSuffix b.1 b.2.1
  have hshown : (if ((bs.filter fun b => b.2.1 = .mean).map Report.bench).isEmpty = true then bs.map Report.bench else
      (bs.filter fun b => b.2.1 = .mean).map Report.bench) = (shown bs).map Report.bench := by
    unfold shown
    by_cases hm : ∃ b ∈ bs, b.2.1 = .mean
    · rw [if_pos hm, if_neg]
      obtain ⟨b, hb, hbm⟩ := hm
      simp only [List.isEmpty_map, List.isEmpty_iff, List.filter_eq_nil_iff, decide_eq_true_eq, not_forall, not_not]
      exact ⟨b, hb, hbm⟩
    · rw [if_neg hm, if_pos]
      push Not at hm
      simp only [List.isEmpty_map, List.isEmpty_iff, List.filter_eq_nil_iff, decide_eq_true_eq]
      exact hm
  have hsub : ∀ b ∈ shown bs, b.1.Ok ∧ (b.2.1 = .run ∨ b.2.1 = .mean) := by
    intro b hb
    unfold shown at hb
    split_ifs at hb with hm
    · obtain ⟨h1, h2⟩ := List.mem_filter.1 hb
      exact ⟨h b h1, .inr (of_decide_eq_true h2)⟩
    · push Not at hm
      exact ⟨h b hb, .inl (hrun hm b hb)⟩
  have hcat : ∀ ws : List Kind, filterBenchmarks ((shown bs).map Report.bench) (reCategory (ws.map Kind.text)) =
      ((shown bs).filter fun b => b.1.kind ∈ ws).map Report.bench := by
    intro ws
    unfold filterBenchmarks
    rw [List.filter_map]
    congr 1
    apply List.filter_congr
    intro b hb
    rw [Bool.eq_iff_iff, decide_eq_true_eq]
    exact c150_category (hsub b hb).1 b.2.1
  have hplot : ∀ ws : List Kind, Kind.box ∉ ws → ∃ p,
      createPlots (filterBenchmarks ((shown bs).map Report.bench) (reCategory (ws.map Kind.text))) = some p ∧
      Shows ((shown bs).filter fun b => b.1.kind ∈ ws) p := by
    intro ws hws
    rw [hcat]
    refine c150_shows _ fun b hb => ?_
    obtain ⟨h1, h2⟩ := List.mem_filter.1 hb
    exact ⟨(hsub b h1).1, fun hk => hws (hk ▸ of_decide_eq_true h2), (hsub b h1).2⟩
  obtain ⟨p1, e1, s1⟩ := hplot [.build] (by decide)
  obtain ⟨p2, e2, s2⟩ := hplot [.knn, .nn] (by decide)
  obtain ⟨p3, e3, s3⟩ := hplot [.radius] (by decide)
  refine ⟨p1, p2, p3, ?_, by simpa using s1, by simpa using s2, by simpa using s3⟩
  unfold plots filterCategories
  simp only [hmean, hshown]
  simp only [List.map_cons, List.map_nil, Kind.text] at e1 e2 e3
  simp [List.mapM_cons, e1, e2, e3]

theorem split_underscore {a a' b b' : List Char} (ha : '_' ∉ a) (ha' : '_' ∉ a') (h : a ++ '_' :: b = a' ++ '_' :: b') :
    a = a' ∧ b = b' := by
  rcases List.append_eq_append_iff.1 h with ⟨e, h1, h2⟩ | ⟨e, h1, h2⟩
  · cases e with
    | nil => simp_all
    | cons x e =>
      simp only [List.cons_append, List.cons.injEq] at h2
      exact absurd (by rw [h1, ← h2.1]; simp) ha'
  · cases e with
    | nil => simp_all
    | cons x e =>
      simp only [List.cons_append, List.cons.injEq] at h2
      exact absurd (by rw [h1, ← h2.1]; simp) ha

/-- C150: without underscores in the names of the classes and methods, a line has the measurements of one class, one method
and one second argument. -/
theorem c150_label {r r' : Measured} (h1 : '_' ∉ r.tree) (h2 : '_' ∉ r.type) (h1' : '_' ∉ r'.tree) (h2' : '_' ∉ r'.type) :
    r.label = r'.label ↔ r.tree = r'.tree ∧ r.type = r'.type ∧ r.arg = r'.arg := by
  constructor
  · intro h
    unfold Measured.label at h
    rw [List.append_assoc, List.append_assoc] at h
    obtain ⟨e1, e2⟩ := split_underscore h1 h1' h
    refine ⟨e1, ?_⟩
    have hinj : ∀ a b : Nat, Nat.toDigits 10 a = Nat.toDigits 10 b → a = b := fun a b h => by
      rw [← Nat.ofDigitChars_ten_toDigits (n := a), h, Nat.ofDigitChars_ten_toDigits]
    cases ha : r.arg with
    | none =>
      cases ha' : r'.arg with
      | none =>
        rw [ha, ha'] at e2
        have e2 : r.type ++ [] = r'.type ++ [] := e2
        exact ⟨by simpa using e2, rfl⟩
      | some b =>
        rw [ha, ha'] at e2
        have e2 : r.type ++ [] = r'.type ++ '_' :: Nat.toDigits 10 b := e2
        rw [List.append_nil] at e2
        exact absurd (by rw [e2]; simp) h2
    | some a =>
      cases ha' : r'.arg with
      | none =>
        rw [ha, ha'] at e2
        have e2 : r.type ++ '_' :: Nat.toDigits 10 a = r'.type ++ [] := e2
        rw [List.append_nil] at e2
        exact absurd (by rw [← e2]; simp) h2'
      | some b =>
        rw [ha, ha'] at e2
        obtain ⟨e3, e4⟩ := split_underscore h2 h2' e2
        exact ⟨e3, by rw [hinj _ _ e4]⟩
  · rintro ⟨e1, e2, e3⟩
    unfold Measured.label
    rw [e1, e2, e3]

/-- With underscores a line may mix two methods. -/
theorem c150_label_false : ∃ r r' : Measured, r.Ok ∧ r'.Ok ∧ r.label = r'.label ∧ r.type ≠ r'.type ∧ r.arg ≠ r'.arg := by
  refine ⟨⟨['A'], .knn, ['C', 't', '_', '1'], 6, none⟩, ⟨['A'], .knn, ['C', 't'], 6, some 1⟩,
    ⟨by decide, by decide, by decide, _, .inl rfl⟩, ⟨by decide, by decide, by decide, _, .inl rfl⟩, ?_, by decide, by decide⟩
  decide +kernel

/-- The measurements of box searches are in no plot. -/
theorem c150_box (bs : List (Report τ)) (h : ∀ b ∈ bs, b.1.Ok ∧ b.1.kind = .box)
    (hrun : (∀ b ∈ bs, b.2.1 ≠ .mean) → ∀ b ∈ bs, b.2.1 = .run) : plots (bs.map Report.bench) = some [[], [], []] := by
  obtain ⟨p1, p2, p3, e, s1, s2, s3⟩ := c150_plots bs (fun b hb => (h b hb).1) hrun
  have hsub : ∀ b ∈ shown bs, b.1.kind = .box := by
    intro b hb
    unfold shown at hb
    split_ifs at hb
    · exact (h b (List.mem_filter.1 hb).1).2
    · exact (h b hb).2
  have hnil : ∀ {l : List (Report τ)} {p : Plots τ}, l = [] → Shows l p → p = [] := by
    intro l p hl hs
    subst hl
    cases p with
    | nil => rfl
    | cons e p => have := (hs.labels e.1).1 (by simp); simp at this
  rw [e, hnil (List.filter_eq_nil_iff.2 fun b hb => by rw [hsub b hb]; decide) s1,
    hnil (List.filter_eq_nil_iff.2 fun b hb => by rw [hsub b hb]; decide) s2,
    hnil (List.filter_eq_nil_iff.2 fun b hb => by rw [hsub b hb]; decide) s3]

/-- A search benchmark whose method is named in another way stops the script: `BmA/KnnFast/1`. -/
theorem c150_name_false : plots [(['B', 'm', 'A', '/', 'K', 'n', 'n', 'F', 'a', 's', 't', '/', '1'], 0)] = none := by
  decide +kernel

/-- Two benchmarks of the repository. -/
def picoKnn (leaf k : Nat) : Measured :=
  ⟨['P', 'i', 'c', 'o', 'K', 'd', 'T', 'r', 'e', 'e'], .knn, ['C', 't', 'S', 'l', 'd', 'M', 'i', 'd'], leaf, some k⟩

/-- A benchmark of another library. -/
def nanoBuild (leaf : Nat) : Measured := ⟨['N', 'a', 'n', 'o', 'f', 'l', 'a', 'n', 'n'], .build, ['R', 't'], leaf, none⟩

theorem picoKnn_ok (leaf k : Nat) : (picoKnn leaf k).Ok :=
  ⟨by simp [picoKnn], by simp [picoKnn], by simp [picoKnn], _, .inl rfl⟩

theorem nanoBuild_ok (leaf : Nat) : (nanoBuild leaf).Ok :=
  ⟨by simp [nanoBuild], by simp [nanoBuild], by simp [nanoBuild], _, .inr rfl⟩

example : ∃ build knn radius, plots (([(picoKnn 1 4, .run, 70), (nanoBuild 6, .run, 20), (picoKnn 12 4, .run, 50),
    (picoKnn 12 8, .run, 80)] : List (Report Nat)).map Report.bench) = some [build, knn, radius] ∧
      Shows [(nanoBuild 6, .run, 20)] build ∧
      Shows [(picoKnn 1 4, .run, 70), (picoKnn 12 4, .run, 50), (picoKnn 12 8, .run, 80)] knn ∧ Shows [] radius := by
  obtain ⟨p1, p2, p3, h, s1, s2, s3⟩ := c150_plots ([(picoKnn 1 4, .run, 70), (nanoBuild 6, .run, 20),
    (picoKnn 12 4, .run, 50), (picoKnn 12 8, .run, 80)] : List (Report Nat))
    (by simp [picoKnn_ok, nanoBuild_ok]) (by simp)
  exact ⟨p1, p2, p3, h, by simpa [shown, picoKnn, nanoBuild] using s1, by simpa [shown, picoKnn, nanoBuild] using s2,
    by simpa [shown, picoKnn, nanoBuild] using s3⟩

/-- Two leaf sizes on one line, in the order of the file. -/
example : plots (([(picoKnn 1 4, .run, 70), (picoKnn 12 4, .run, 50)] : List (Report Nat)).map Report.bench) =
    some [[], [((picoKnn 1 4).label, [1, 12], [70, 50])], []] := by decide +kernel

end Pico.Props
