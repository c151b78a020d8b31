import Verif.Proof.Dispatch

/-!
# C117: a call from Python performs the search that its arguments name
-/

namespace Pico.Props

open Pico.Bind

variable {A D F : Type}

/-- A search with a radius as a user writes it: the arguments in the order of the documentation. -/
def radiusArgs (pts : A) (radius : F) (e : Option F) (nns : Option D) (sort : Option Bool) (ta : Option Bool)
    (tr te tx : Bool) : List (Name × PyVal A D F) :=
  [(.pts, .array pts ta), (.radius, .float radius tr)] ++ (e.map fun e => (Name.e, PyVal.float e te)).toList ++
    (nns.map fun x => (Name.nns, PyVal.darray x tx)).toList ++ (sort.map fun b => (Name.sort, PyVal.bool b)).toList

/-- `search_radius`, with or without a ratio, an output and the wish to sort. The first `i` arguments are passed by
position, the others by keyword in any order. -/
theorem c117_radius (pts : A) (radius : F) (e : Option F) (nns : Option D) (sort : Option Bool) (ta : Option Bool)
    (tr te tx : Bool) (i : Nat) (kw : List (Name × PyVal A D F))
    (h : kw.Perm ((radiusArgs pts radius e nns sort ta tr te tx).drop i)) :
    resolve radiusOverloads (((radiusArgs pts radius e nns sort ta tr te tx).take i).map Prod.snd) kw =
      some ⟨pts, radius, e, nns, sort.getD false⟩ := by
  have hn : (kw.map Prod.fst).Nodup := by
    rw [(h.map Prod.fst).nodup_iff, List.map_drop]
    refine List.Nodup.sublist (List.drop_sublist _ _) ?_
    cases e <;> cases nns <;> cases sort <;> simp [radiusArgs]
  rw [resolve_perm _ _ h hn]
  clear hn h kw
  by_cases hi : i < 5
  · cases e <;> cases nns <;> cases sort <;> interval_cases i <;> rfl
  · have hl : (radiusArgs pts radius e nns sort ta tr te tx).length ≤ i := by
      cases e <;> cases nns <;> cases sort <;> simp [radiusArgs] <;> omega
    rw [List.take_of_length_le hl, List.drop_of_length_le hl]
    cases e <;> cases nns <;> cases sort <;> rfl

/-- A search for `k` neighbors as a user writes it. -/
def knnArgs (pts : A) (k : Int) (e : Option F) (nns : Option A) (ta tn : Option Bool) (te : Bool) :
    List (Name × PyVal A D F) :=
  [(.pts, .array pts ta), (.k, .int k)] ++ (e.map fun e => (Name.e, PyVal.float e te)).toList ++
    (nns.map fun x => (Name.nns, PyVal.array x tn)).toList

/-- `search_knn`, with or without a ratio and an output. -/
theorem c117_knn (pts : A) (k : Int) (e : Option F) (nns : Option A) (ta tn : Option Bool) (te : Bool) (i : Nat)
    (kw : List (Name × PyVal A D F)) (h : kw.Perm ((knnArgs pts k e nns ta tn te).drop i)) :
    resolve (D := D) knnOverloads (((knnArgs pts k e nns ta tn te).take i).map Prod.snd) kw =
      some ⟨pts, k, e, nns⟩ := by
  have hn : (kw.map Prod.fst).Nodup := by
    rw [(h.map Prod.fst).nodup_iff, List.map_drop]
    refine List.Nodup.sublist (List.drop_sublist _ _) ?_
    cases e <;> cases nns <;> simp [knnArgs]
  rw [resolve_perm _ _ h hn]
  clear hn h kw
  by_cases hi : i < 4
  · cases e <;> cases nns <;> interval_cases i <;> rfl
  · have hl : (knnArgs (D := D) pts k e nns ta tn te).length ≤ i := by
      cases e <;> cases nns <;> simp [knnArgs] <;> omega
    rw [List.take_of_length_le hl, List.drop_of_length_le hl]
    cases e <;> cases nns <;> rfl

/-- A search in boxes as a user writes it. -/
def boxArgs (boxes : A) (indices : Option D) (ta : Option Bool) (tx : Bool) : List (Name × PyVal A D F) :=
  (.boxes, .array boxes ta) :: (indices.map fun x => (Name.indices, PyVal.darray x tx)).toList

/-- `search_box`, with or without an output. -/
theorem c117_box (boxes : A) (indices : Option D) (ta : Option Bool) (tx : Bool) (i : Nat)
    (kw : List (Name × PyVal A D F)) (h : kw.Perm ((boxArgs boxes indices ta tx).drop i)) :
    resolve (F := F) boxOverloads (((boxArgs boxes indices ta tx).take i).map Prod.snd) kw = some ⟨boxes, indices⟩ := by
  have hn : (kw.map Prod.fst).Nodup := by
    rw [(h.map Prod.fst).nodup_iff, List.map_drop]
    refine List.Nodup.sublist (List.drop_sublist _ _) ?_
    cases indices <;> simp [boxArgs]
  rw [resolve_perm _ _ h hn]
  clear hn h kw
  by_cases hi : i < 2
  · cases indices <;> interval_cases i <;> rfl
  · have hl : (boxArgs (F := F) boxes indices ta tx).length ≤ i := by
      cases indices <;> simp [boxArgs] <;> omega
    rw [List.take_of_length_le hl, List.drop_of_length_le hl]
    cases indices <;> rfl

/-- An integer as ratio, without output: the search is exact, and the number says whether to sort. The same for every
other object that is not a `float` but has a truth value, as a `numpy.float32`. -/
theorem c117_ratio_false (pts : A) (radius : F) (ta : Option Bool) (tr b : Bool) (v : Int) :
    resolve (D := D) radiusOverloads [.array pts ta, .float radius tr, .int v] [] =
      some ⟨pts, radius, none, none, decide (v ≠ 0)⟩ ∧
    resolve (D := D) radiusOverloads [.array pts ta, .float radius tr, .other (some b)] [] =
      some ⟨pts, radius, none, none, b⟩ := ⟨rfl, rfl⟩

/-- Given by keyword, or with an output, or to `search_knn`, an integer as ratio is an error; so is an integer as
radius. -/
theorem c117_errors (pts : A) (radius : F) (x : D) (y : A) (ta tn : Option Bool) (tr tx b : Bool) (v k : Int) :
    resolve (D := D) radiusOverloads [.array pts ta, .float radius tr] [(.e, .int v)] = none ∧
    resolve (D := D) radiusOverloads [.array pts ta, .float radius tr, .int v, .bool b] [] = none ∧
    resolve (D := D) radiusOverloads [.array pts ta, .float radius tr, .int v] [(.sort, .bool b)] = none ∧
    resolve (D := D) radiusOverloads [.array pts ta, .float radius tr, .int v, .darray x tx] [] = none ∧
    resolve (D := D) (F := F) radiusOverloads [.array pts ta, .int v] [] = none ∧
    resolve (D := D) (F := F) knnOverloads [.array pts ta, .int k, .int v] [] = none ∧
    resolve (D := D) (F := F) knnOverloads [.array pts ta, .int k, .int v, .array y tn] [] = none :=
  ⟨rfl, rfl, rfl, rfl, rfl, rfl, rfl⟩

theorem load_array {p : Bool} {v : PyVal A D F} {a : Arg A D F} (h : load .array p v = some a) :
    ∃ x t, v = .array x t ∧ a = .array x := by
  cases v <;> simp [load] at h
  exact ⟨_, _, rfl, h.symm⟩

theorem load_darray {p : Bool} {v : PyVal A D F} {a : Arg A D F} (h : load .darray p v = some a) :
    ∃ x t, v = .darray x t ∧ a = .darray x := by
  cases v <;> simp [load] at h
  exact ⟨_, _, rfl, h.symm⟩

theorem load_float {p : Bool} {v : PyVal A D F} {a : Arg A D F} (h : load .float p v = some a) :
    ∃ x t, v = .float x t ∧ a = .float x := by
  cases v <;> simp [load] at h
  exact ⟨_, _, rfl, h.symm⟩

/-- The integer that an object is: a Python `bool` is one. -/
def asInt : PyVal A D F → Option Int
  | .int v => some v
  | .bool b => some (if b then 1 else 0)
  | _ => none

theorem load_int {p : Bool} {v : PyVal A D F} {a : Arg A D F} (h : load .int p v = some a) :
    ∃ x, asInt v = some x ∧ a = .int x := by
  cases v <;> simp [load] at h
  · exact ⟨_, rfl, h.symm⟩
  · exact ⟨_, rfl, h.symm⟩

theorem load_bool {p : Bool} {v : PyVal A D F} {a : Arg A D F} (h : load .bool p v = some a) :
    ∃ b, v.truth = some b ∧ a = .bool b := by
  have key : ∀ t : Option Bool, t.map Arg.bool = some a → ∃ b, t = some b ∧ a = .bool b := by
    rintro (_ | b) h
    · cases h
    · exact ⟨b, rfl, (Option.some.inj h).symm⟩
  cases p <;> cases v <;> first
    | exact key _ h
    | cases h

theorem loadAll_cons {pass : Bool} {p : Param A D F} {ps : List (Param A D F)} {v : PyVal A D F}
    {vs : List (PyVal A D F)} {as : List (Arg A D F)} (h : loadAll pass (p :: ps) (v :: vs) = some as) :
    ∃ a as', as = a :: as' ∧ load p.caster (pass && p.convert) v = some a ∧ loadAll pass ps vs = some as' := by
  rw [loadAll] at h
  split at h
  · rename_i a as' h1 h2
    exact ⟨a, as', (Option.some.inj h).symm, h1, h2⟩
  · cases h

/-- How many arguments a search with a radius has before `sort`. -/
def radiusBefore (c : RadiusCall A D F) : Nat := 2 + c.e.toList.length + c.nns.toList.length

/-- The names of the arguments of a search with a radius. -/
def radiusNames (c : RadiusCall A D F) : List Name :=
  [.pts, .radius] ++ (c.e.map fun _ => Name.e).toList ++ (c.nns.map fun _ => Name.nns).toList ++ [.sort]

/-- Whatever is passed: when `search_radius` runs, the points, the radius, the ratio and the output are objects that
were passed for them, the wish to sort is the truth value of what was passed for it (`false` when nothing was), and
nothing that was passed is left out. -/
theorem c117_performed {pos : List (PyVal A D F)} {kw : List (Name × PyVal A D F)} {c : RadiusCall A D F}
    (h : resolve radiusOverloads pos kw = some c) :
    (∃ t, given pos kw 0 .pts = some (.array c.pts t)) ∧
    (∃ t, given pos kw 1 .radius = some (.float c.radius t)) ∧
    (∀ e, c.e = some e → ∃ t, given pos kw 2 .e = some (.float e t)) ∧
    (∀ x, c.nns = some x → ∃ t, given pos kw (2 + c.e.toList.length) .nns = some (.darray x t)) ∧
    ((∃ v, given pos kw (radiusBefore c) .sort = some v ∧ v.truth = some c.sort) ∨
      (given pos kw (radiusBefore c) .sort = none ∧ c.sort = false)) ∧
    pos.length ≤ radiusBefore c + 1 ∧ ∀ x ∈ kw, x.1 ∈ (radiusNames c).drop pos.length := by
  obtain ⟨o, ho, pass, vs, as, h1, h2, h3⟩ := resolve_some h
  simp only [radiusOverloads, List.mem_cons, List.not_mem_nil, or_false] at ho
  have hs : ∀ {i v b}, (given pos kw i .sort = some v ∨
      given pos kw i .sort = none ∧ (sortParam : Param A D F).default = some v) → v.truth = some b →
      (∃ v, given pos kw i .sort = some v ∧ v.truth = some b) ∨ (given pos kw i .sort = none ∧ b = false) := by
    rintro i v b (hv | ⟨hv, hd⟩) hl
    · exact .inl ⟨v, hv, hl⟩
    · obtain rfl := Option.some.inj hd
      exact .inr ⟨hv, (Option.some.inj hl).symm⟩
  have hg : ∀ {i : Nat} {n : Name} {k : Caster} {b : Bool} {v : PyVal A D F},
      (given pos kw i n = some v ∨ given pos kw i n = none ∧ (⟨n, k, b, none⟩ : Param A D F).default = some v) →
      given pos kw i n = some v := by
    rintro i n k b v (hv | ⟨_, hd⟩)
    · exact hv
    · cases hd
  rcases ho with rfl | rfl | rfl | rfl
  · obtain ⟨hl, hp, hv, hk⟩ := collect_some (by simp [exactly, plain, sortParam]) h1
    rw [List.map_drop] at hk
    match vs, hl with
    | [v0, v1, v2, v3], _ =>
      obtain ⟨a0, _, rfl, l0, h2⟩ := loadAll_cons h2
      obtain ⟨a1, _, rfl, l1, h2⟩ := loadAll_cons h2
      obtain ⟨a2, _, rfl, l2, h2⟩ := loadAll_cons h2
      obtain ⟨a3, _, rfl, l3, h2⟩ := loadAll_cons h2
      obtain rfl := Option.some.inj h2
      have g0 := hg (hv 0 _ _ rfl rfl)
      have g1 := hg (hv 1 _ _ rfl rfl)
      have g2 := hg (hv 2 _ _ rfl rfl)
      have g3 := hv 3 _ _ rfl rfl
      obtain ⟨x0, t0, rfl, rfl⟩ := load_array l0
      obtain ⟨x1, t1, rfl, rfl⟩ := load_float l1
      obtain ⟨x2, t2, rfl, rfl⟩ := load_darray l2
      obtain ⟨b, hb, rfl⟩ := load_bool l3
      obtain rfl := Option.some.inj h3
      refine ⟨⟨_, g0⟩, ⟨_, g1⟩, by simp, ?_, hs g3 hb, hp, hk⟩
      intro x hx
      obtain rfl := Option.some.inj hx
      exact ⟨_, g2⟩
  · obtain ⟨hl, hp, hv, hk⟩ := collect_some (by simp [exactly, plain, sortParam]) h1
    rw [List.map_drop] at hk
    match vs, hl with
    | [v0, v1, v3], _ =>
      obtain ⟨a0, _, rfl, l0, h2⟩ := loadAll_cons h2
      obtain ⟨a1, _, rfl, l1, h2⟩ := loadAll_cons h2
      obtain ⟨a3, _, rfl, l3, h2⟩ := loadAll_cons h2
      obtain rfl := Option.some.inj h2
      have g0 := hg (hv 0 _ _ rfl rfl)
      have g1 := hg (hv 1 _ _ rfl rfl)
      have g3 := hv 2 _ _ rfl rfl
      obtain ⟨x0, t0, rfl, rfl⟩ := load_array l0
      obtain ⟨x1, t1, rfl, rfl⟩ := load_float l1
      obtain ⟨b, hb, rfl⟩ := load_bool l3
      obtain rfl := Option.some.inj h3
      exact ⟨⟨_, g0⟩, ⟨_, g1⟩, by simp, by simp, hs g3 hb, hp, hk⟩
  · obtain ⟨hl, hp, hv, hk⟩ := collect_some (by simp [exactly, plain, sortParam]) h1
    rw [List.map_drop] at hk
    match vs, hl with
    | [v0, v1, v2, v3, v4], _ =>
      obtain ⟨a0, _, rfl, l0, h2⟩ := loadAll_cons h2
      obtain ⟨a1, _, rfl, l1, h2⟩ := loadAll_cons h2
      obtain ⟨a2, _, rfl, l2, h2⟩ := loadAll_cons h2
      obtain ⟨a3, _, rfl, l3, h2⟩ := loadAll_cons h2
      obtain ⟨a4, _, rfl, l4, h2⟩ := loadAll_cons h2
      obtain rfl := Option.some.inj h2
      have g0 := hg (hv 0 _ _ rfl rfl)
      have g1 := hg (hv 1 _ _ rfl rfl)
      have g2 := hg (hv 2 _ _ rfl rfl)
      have g3 := hg (hv 3 _ _ rfl rfl)
      have g4 := hv 4 _ _ rfl rfl
      obtain ⟨x0, t0, rfl, rfl⟩ := load_array l0
      obtain ⟨x1, t1, rfl, rfl⟩ := load_float l1
      obtain ⟨x2, t2, rfl, rfl⟩ := load_float l2
      obtain ⟨x3, t3, rfl, rfl⟩ := load_darray l3
      obtain ⟨b, hb, rfl⟩ := load_bool l4
      obtain rfl := Option.some.inj h3
      refine ⟨⟨_, g0⟩, ⟨_, g1⟩, ?_, ?_, hs g4 hb, hp, hk⟩
      · intro x hx
        obtain rfl := Option.some.inj hx
        exact ⟨_, g2⟩
      · intro x hx
        obtain rfl := Option.some.inj hx
        exact ⟨_, g3⟩
  · obtain ⟨hl, hp, hv, hk⟩ := collect_some (by simp [exactly, plain, sortParam]) h1
    rw [List.map_drop] at hk
    match vs, hl with
    | [v0, v1, v2, v3], _ =>
      obtain ⟨a0, _, rfl, l0, h2⟩ := loadAll_cons h2
      obtain ⟨a1, _, rfl, l1, h2⟩ := loadAll_cons h2
      obtain ⟨a2, _, rfl, l2, h2⟩ := loadAll_cons h2
      obtain ⟨a3, _, rfl, l3, h2⟩ := loadAll_cons h2
      obtain rfl := Option.some.inj h2
      have g0 := hg (hv 0 _ _ rfl rfl)
      have g1 := hg (hv 1 _ _ rfl rfl)
      have g2 := hg (hv 2 _ _ rfl rfl)
      have g3 := hv 3 _ _ rfl rfl
      obtain ⟨x0, t0, rfl, rfl⟩ := load_array l0
      obtain ⟨x1, t1, rfl, rfl⟩ := load_float l1
      obtain ⟨x2, t2, rfl, rfl⟩ := load_float l2
      obtain ⟨b, hb, rfl⟩ := load_bool l3
      obtain rfl := Option.some.inj h3
      refine ⟨⟨_, g0⟩, ⟨_, g1⟩, ?_, by simp, hs g3 hb, hp, hk⟩
      intro x hx
      obtain rfl := Option.some.inj hx
      exact ⟨_, g2⟩

/-- When the search is not approximate although an object was passed for the ratio, then that object stands third, no
output was passed, it is not a `float`, and it was taken as the wish to sort by its truth value. -/
theorem c117_ratio_ignored {pts : A} {radius : F} {ta : Option Bool} {tr : Bool} {v : PyVal A D F}
    {rest : List (PyVal A D F)} {kw : List (Name × PyVal A D F)} {c : RadiusCall A D F}
    (h : resolve radiusOverloads (.array pts ta :: .float radius tr :: v :: rest) kw = some c) (hc : c.e = none)
    (hv : ∀ x t, v ≠ .darray x t) : rest = [] ∧ kw = [] ∧ v.truth = some c.sort ∧ ∀ x t, v ≠ .float x t := by
  obtain ⟨-, -, -, hn, hs, hl, hk⟩ := c117_performed h
  have hn' : c.nns = none := by
    cases hx : c.nns with
    | none => rfl
    | some x =>
      obtain ⟨t, ht⟩ := hn x hx
      rw [hc] at ht
      exact (hv x t (Option.some.inj ht)).elim
  have hb : radiusBefore c = 2 := by simp [radiusBefore, hc, hn']
  have hr : rest = [] := by
    rw [hb] at hl
    cases rest with
    | nil => rfl
    | cons w rest => simp at hl
  subst hr
  have hkw : kw = [] := by
    cases kw with
    | nil => rfl
    | cons x kw =>
      have := hk x List.mem_cons_self
      simp [radiusNames, hc, hn'] at this
  subst hkw
  refine ⟨rfl, rfl, ?_, ?_⟩
  · rw [hb] at hs
    rcases hs with ⟨w, hw, ht⟩ | ⟨hw, -⟩
    · obtain rfl := Option.some.inj hw
      exact ht
    · cases hw
  · rintro x t rfl
    have := c117_radius (D := D) pts radius (some x) none none ta tr t true 3 [] (List.Perm.refl _)
    rw [show ((radiusArgs (D := D) pts radius (some x) none none ta tr t true).take 3).map Prod.snd =
      [.array pts ta, .float radius tr, .float x t] from rfl, h] at this
    obtain rfl := Option.some.inj this
    cases hc

/-- The names of the arguments of a search for `k` neighbors. -/
def knnNames (c : KnnCall A F) : List Name :=
  [.pts, .k] ++ (c.e.map fun _ => Name.e).toList ++ (c.nns.map fun _ => Name.nns).toList

/-- Whatever is passed: when `search_knn` runs, the points, the number, the ratio and the output are those that were
passed for them, nothing is converted, and nothing that was passed is left out. -/
theorem c117_performed_knn {pos : List (PyVal A D F)} {kw : List (Name × PyVal A D F)} {c : KnnCall A F}
    (h : resolve knnOverloads pos kw = some c) :
    (∃ t, given pos kw 0 .pts = some (.array c.pts t)) ∧
    (∃ v, given pos kw 1 .k = some v ∧ asInt v = some c.k) ∧
    (∀ e, c.e = some e → ∃ t, given pos kw 2 .e = some (.float e t)) ∧
    (∀ x, c.nns = some x → ∃ t, given pos kw (2 + c.e.toList.length) .nns = some (.array x t)) ∧
    pos.length ≤ (knnNames c).length ∧ ∀ x ∈ kw, x.1 ∈ (knnNames c).drop pos.length := by
  obtain ⟨o, ho, pass, vs, as, h1, h2, h3⟩ := resolve_some h
  simp only [knnOverloads, List.mem_cons, List.not_mem_nil, or_false] at ho
  have hg : ∀ {i : Nat} {n : Name} {k : Caster} {b : Bool} {v : PyVal A D F},
      (given pos kw i n = some v ∨ given pos kw i n = none ∧ (⟨n, k, b, none⟩ : Param A D F).default = some v) →
      given pos kw i n = some v := by
    rintro i n k b v (hv | ⟨_, hd⟩)
    · exact hv
    · cases hd
  rcases ho with rfl | rfl | rfl | rfl
  · obtain ⟨hl, hp, hv, hk⟩ := collect_some (by simp [exactly, plain]) h1
    rw [List.map_drop] at hk
    match vs, hl with
    | [v0, v1, v2], _ =>
      obtain ⟨a0, _, rfl, l0, h2⟩ := loadAll_cons h2
      obtain ⟨a1, _, rfl, l1, h2⟩ := loadAll_cons h2
      obtain ⟨a2, _, rfl, l2, h2⟩ := loadAll_cons h2
      obtain rfl := Option.some.inj h2
      obtain ⟨x0, t0, rfl, rfl⟩ := load_array l0
      obtain ⟨x1, t1, rfl⟩ := load_int l1
      obtain ⟨x2, t2, rfl, rfl⟩ := load_array l2
      obtain rfl := Option.some.inj h3
      refine ⟨⟨_, hg (hv 0 _ _ rfl rfl)⟩, ⟨_, hg (hv 1 _ _ rfl rfl), t1⟩, by simp, ?_, hp, hk⟩
      intro x hx
      obtain rfl := Option.some.inj hx
      exact ⟨_, hg (hv 2 _ _ rfl rfl)⟩
  · obtain ⟨hl, hp, hv, hk⟩ := collect_some (by simp [exactly, plain]) h1
    rw [List.map_drop] at hk
    match vs, hl with
    | [v0, v1], _ =>
      obtain ⟨a0, _, rfl, l0, h2⟩ := loadAll_cons h2
      obtain ⟨a1, _, rfl, l1, h2⟩ := loadAll_cons h2
      obtain rfl := Option.some.inj h2
      obtain ⟨x0, t0, rfl, rfl⟩ := load_array l0
      obtain ⟨x1, t1, rfl⟩ := load_int l1
      obtain rfl := Option.some.inj h3
      exact ⟨⟨_, hg (hv 0 _ _ rfl rfl)⟩, ⟨_, hg (hv 1 _ _ rfl rfl), t1⟩, by simp, by simp, hp, hk⟩
  · obtain ⟨hl, hp, hv, hk⟩ := collect_some (by simp [exactly, plain]) h1
    rw [List.map_drop] at hk
    match vs, hl with
    | [v0, v1, v2, v3], _ =>
      obtain ⟨a0, _, rfl, l0, h2⟩ := loadAll_cons h2
      obtain ⟨a1, _, rfl, l1, h2⟩ := loadAll_cons h2
      obtain ⟨a2, _, rfl, l2, h2⟩ := loadAll_cons h2
      obtain ⟨a3, _, rfl, l3, h2⟩ := loadAll_cons h2
      obtain rfl := Option.some.inj h2
      obtain ⟨x0, t0, rfl, rfl⟩ := load_array l0
      obtain ⟨x1, t1, rfl⟩ := load_int l1
      obtain ⟨x2, t2, rfl, rfl⟩ := load_float l2
      obtain ⟨x3, t3, rfl, rfl⟩ := load_array l3
      obtain rfl := Option.some.inj h3
      refine ⟨⟨_, hg (hv 0 _ _ rfl rfl)⟩, ⟨_, hg (hv 1 _ _ rfl rfl), t1⟩, ?_, ?_, hp, hk⟩
      · intro x hx
        obtain rfl := Option.some.inj hx
        exact ⟨_, hg (hv 2 _ _ rfl rfl)⟩
      · intro x hx
        obtain rfl := Option.some.inj hx
        exact ⟨_, hg (hv 3 _ _ rfl rfl)⟩
  · obtain ⟨hl, hp, hv, hk⟩ := collect_some (by simp [exactly, plain]) h1
    rw [List.map_drop] at hk
    match vs, hl with
    | [v0, v1, v2], _ =>
      obtain ⟨a0, _, rfl, l0, h2⟩ := loadAll_cons h2
      obtain ⟨a1, _, rfl, l1, h2⟩ := loadAll_cons h2
      obtain ⟨a2, _, rfl, l2, h2⟩ := loadAll_cons h2
      obtain rfl := Option.some.inj h2
      obtain ⟨x0, t0, rfl, rfl⟩ := load_array l0
      obtain ⟨x1, t1, rfl⟩ := load_int l1
      obtain ⟨x2, t2, rfl, rfl⟩ := load_float l2
      obtain rfl := Option.some.inj h3
      refine ⟨⟨_, hg (hv 0 _ _ rfl rfl)⟩, ⟨_, hg (hv 1 _ _ rfl rfl), t1⟩, ?_, by simp, hp, hk⟩
      intro x hx
      obtain rfl := Option.some.inj hx
      exact ⟨_, hg (hv 2 _ _ rfl rfl)⟩

/-- The same for `search_box`. -/
theorem c117_performed_box {pos : List (PyVal A D F)} {kw : List (Name × PyVal A D F)} {c : BoxCall A D}
    (h : resolve boxOverloads pos kw = some c) :
    (∃ t, given pos kw 0 .boxes = some (.array c.boxes t)) ∧
    (∀ x, c.indices = some x → ∃ t, given pos kw 1 .indices = some (.darray x t)) ∧
    pos.length ≤ 1 + c.indices.toList.length ∧
    ∀ x ∈ kw, x.1 ∈ (Name.boxes :: (c.indices.map fun _ => Name.indices).toList).drop pos.length := by
  obtain ⟨o, ho, pass, vs, as, h1, h2, h3⟩ := resolve_some h
  simp only [boxOverloads, List.mem_cons, List.not_mem_nil, or_false] at ho
  have hg : ∀ {i : Nat} {n : Name} {k : Caster} {b : Bool} {v : PyVal A D F},
      (given pos kw i n = some v ∨ given pos kw i n = none ∧ (⟨n, k, b, none⟩ : Param A D F).default = some v) →
      given pos kw i n = some v := by
    rintro i n k b v (hv | ⟨_, hd⟩)
    · exact hv
    · cases hd
  rcases ho with rfl | rfl
  · obtain ⟨hl, hp, hv, hk⟩ := collect_some (by simp [exactly]) h1
    rw [List.map_drop] at hk
    match vs, hl with
    | [v0, v1], _ =>
      obtain ⟨a0, _, rfl, l0, h2⟩ := loadAll_cons h2
      obtain ⟨a1, _, rfl, l1, h2⟩ := loadAll_cons h2
      obtain rfl := Option.some.inj h2
      obtain ⟨x0, t0, rfl, rfl⟩ := load_array l0
      obtain ⟨x1, t1, rfl, rfl⟩ := load_darray l1
      obtain rfl := Option.some.inj h3
      refine ⟨⟨_, hg (hv 0 _ _ rfl rfl)⟩, ?_, hp, hk⟩
      intro x hx
      obtain rfl := Option.some.inj hx
      exact ⟨_, hg (hv 1 _ _ rfl rfl)⟩
  · obtain ⟨hl, hp, hv, hk⟩ := collect_some (by simp [exactly]) h1
    rw [List.map_drop] at hk
    match vs, hl with
    | [v0], _ =>
      obtain ⟨a0, _, rfl, l0, h2⟩ := loadAll_cons h2
      obtain rfl := Option.some.inj h2
      obtain ⟨x0, t0, rfl, rfl⟩ := load_array l0
      obtain rfl := Option.some.inj h3
      exact ⟨⟨_, hg (hv 0 _ _ rfl rfl)⟩, by simp, hp, hk⟩

/-! ## Examples: arrays, outputs and floats are told apart by strings and numbers -/

/-- `search_radius(pts, 2.5, sort=True, e=1.5)` -/
example : resolve (A := String) (D := String) (F := Nat) radiusOverloads [.array "pts" none, .float 25 true]
    [(.sort, .bool true), (.e, .float 15 true)] = some ⟨"pts", 25, some 15, none, true⟩ :=
  c117_radius "pts" 25 (some 15) none (some true) none true true true 2 _ (List.Perm.swap _ _ _)

/-- `search_radius(pts, 2.5, 1.5, nns, True)` -/
example : resolve (A := String) (D := String) (F := Nat) radiusOverloads
    [.array "pts" none, .float 25 true, .float 15 true, .darray "nns" true, .bool true] [] =
      some ⟨"pts", 25, some 15, some "nns", true⟩ :=
  c117_radius "pts" 25 (some 15) (some "nns") (some true) none true true true 5 [] (List.Perm.refl _)

/-- `search_radius(pts, 2.5, True)` sorts, and `search_radius(pts, 2.5, 2)` sorts too and does not approximate. -/
example : resolve (A := String) (D := String) (F := Nat) radiusOverloads
      [.array "pts" none, .float 25 true, .bool true] [] = some ⟨"pts", 25, none, none, true⟩ ∧
    resolve (A := String) (D := String) (F := Nat) radiusOverloads [.array "pts" none, .float 25 true, .int 2] [] =
      some ⟨"pts", 25, none, none, true⟩ :=
  ⟨c117_radius "pts" 25 none none (some true) none true true true 3 [] (List.Perm.refl _),
    (c117_ratio_false "pts" 25 none true true 2).1⟩

/-- `search_knn(pts, k=3, nns=out)` -/
example : resolve (A := String) (D := String) (F := Nat) knnOverloads [.array "pts" none]
    [(.nns, .array "out" none), (.k, .int 3)] = some ⟨"pts", 3, none, some "out"⟩ :=
  c117_knn "pts" 3 none (some "out") none none true 1 _ (List.Perm.swap _ _ _)

/-- `search_box(indices=out, boxes=b)` -/
example : resolve (A := String) (D := String) (F := Nat) boxOverloads []
    [(.indices, .darray "out" true), (.boxes, .array "b" none)] = some ⟨"b", some "out"⟩ :=
  c117_box "b" (some "out") none true 0 _ (List.Perm.swap _ _ _)

theorem collect_not_none {ps : List (Param A D F)} {pos : List (PyVal A D F)} {kw : List (Name × PyVal A D F)}
    {vs : List (PyVal A D F)} (hkw : (kw.map (·.1)).Nodup) (h : collect ps pos kw = some vs) :
    PyVal.none ∉ pos ∧ ∀ n, (n, PyVal.none) ∉ kw := by
  induction ps generalizing pos kw vs with
  | nil =>
    cases pos with
    | nil =>
      simp only [collect] at h
      split_ifs at h with he
      rw [List.isEmpty_iff] at he
      subst he
      exact ⟨nofun, fun n => nofun⟩
    | cons v pos => simp [collect] at h
  | cons p ps ih =>
    cases pos with
    | cons v pos =>
      simp only [collect] at h
      split_ifs at h with h1 h2
      obtain ⟨vs', h3, -⟩ := Option.map_eq_some_iff.1 h
      obtain ⟨g1, g2⟩ := ih hkw h3
      refine ⟨fun hm => ?_, g2⟩
      rcases List.mem_cons.1 hm with rfl | hm
      · exact h2 rfl
      · exact g1 hm
    | nil =>
      refine ⟨nofun, fun n hn => ?_⟩
      simp only [collect] at h
      split at h
      · rename_i x hx
        split_ifs at h with h1
        obtain ⟨vs', h3, -⟩ := Option.map_eq_some_iff.1 h
        have hsub := (List.filter_sublist (p := fun y : Name × PyVal A D F => decide (y.1 ≠ p.name)) (l := kw)).map (·.1)
        have hne := (ih (hkw.sublist hsub) h3).2 n
        have hxp : x.1 = p.name := by simpa using List.find?_some hx
        have hnp : n = p.name := by
          by_contra hc
          exact hne (List.mem_filter.2 ⟨hn, by simpa using hc⟩)
        have : x = (n, PyVal.none) :=
          List.inj_on_of_nodup_map hkw (List.mem_of_find?_eq_some hx) hn (by rw [hxp, hnp])
        rw [this] at h1
        exact h1 rfl
      · split at h
        · obtain ⟨vs', h3, -⟩ := Option.map_eq_some_iff.1 h
          exact (ih hkw h3).2 n hn
        · cases h

/-- `None` is never an argument: not as a missing output or ratio, nor for `sort`. -/
theorem c117_none {ρ : Type} (os : List (Overload A D F ρ)) {pos : List (PyVal A D F)} {kw : List (Name × PyVal A D F)}
    (hkw : (kw.map (·.1)).Nodup) (h : PyVal.none ∈ pos ∨ ∃ n, (n, PyVal.none) ∈ kw) : resolve os pos kw = none := by
  have key : ∀ (o : Overload A D F ρ) pass, o.attempt pass pos kw = none := by
    intro o pass
    unfold Overload.attempt
    split
    · rename_i vs hvs
      obtain ⟨g1, g2⟩ := collect_not_none hkw hvs
      rcases h with h | ⟨n, h⟩
      · exact absurd h g1
      · exact absurd h (g2 n)
    · rfl
  unfold resolve
  have : ∀ pass, os.findSome? (fun o => o.attempt pass pos kw) = none := fun pass =>
    List.findSome?_eq_none_iff.2 fun o _ => key o pass
  rw [this, this]

example (pts : A) (radius : F) : resolve (D := D) radiusOverloads [.array pts none, .float radius true]
    [(.sort, .none)] = none := c117_none _ (by simp) (.inr ⟨.sort, by simp⟩)

end Pico.Props
