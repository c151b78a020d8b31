import Verif.SpecCoverMem
import Verif.Proof.CoverBuild
import Verif.Proof.Reads

/-!
# The cover tree in memory: nodes changed through pointers
-/

namespace Pico.CoverMem

open Spec

variable {α L γ : Type}

/-! ### Reading and writing -/

theorem read_ok {m : Mem α L} {p : Ptr} {c : Cell α L} (h : m p = some c) : read m p = .ok c := by
  rw [read, h]

theorem write_ok {m : Mem α L} {p : Ptr} {c c' : Cell α L} (h : m p = some c) :
    write m p c' = .ok (Function.update m p (some c')) := by
  rw [write, h]

/-- A pointer, the tree it points at, and the addresses of its nodes. -/
abbrev Entry (L γ : Type) := Ptr × CNode L γ × List Ptr

/-- The addresses of the nodes of several trees. -/
def foot (es : List (Entry L γ)) : List Ptr := es.flatMap fun e => e.2.2

@[simp] theorem foot_nil : foot ([] : List (Entry L γ)) = [] := rfl
@[simp] theorem foot_cons (e : Entry L γ) (es : List (Entry L γ)) : foot (e :: es) = e.2.2 ++ foot es := rfl
@[simp] theorem foot_append (a b : List (Entry L γ)) : foot (a ++ b) = foot a ++ foot b := by
  simp [foot]

theorem foot_perm {a b : List (Entry L γ)} (h : a.Perm b) : (foot a).Perm (foot b) := h.flatMap_right _

theorem mem_foot {es : List (Entry L γ)} {e : Entry L γ} (h : e ∈ es) {x : Ptr} (hx : x ∈ e.2.2) :
    x ∈ foot es := List.mem_flatMap.2 ⟨e, h, hx⟩

theorem length_le_foot {es : List (Entry L γ)} {e : Entry L γ} (h : e ∈ es) : e.2.2.length ≤ (foot es).length := by
  induction es with
  | nil => simp at h
  | cons a es ih =>
    rw [foot_cons, List.length_append]
    rcases List.mem_cons.1 h with rfl | h
    · omega
    · have := ih h; omega

variable {same : α → γ → Prop}

theorem storedList_iff {m : Mem α L} : ∀ {cs : List (CNode L γ)} {ps f : List Ptr},
    StoredList same m cs ps f ↔ ∃ es : List (Entry L γ), es.map (·.1) = ps ∧ es.map (·.2.1) = cs ∧ f = foot es ∧
      ∀ e ∈ es, Stored same m e.2.1 e.1 e.2.2
  | [], ps, f => by
    rw [StoredList]
    constructor
    · rintro ⟨rfl, rfl⟩
      exact ⟨[], by simp⟩
    · rintro ⟨es, rfl, h2, rfl, -⟩
      have : es = [] := by simpa using h2
      subst this
      simp
  | c :: cs, ps, f => by
    rw [StoredList]
    constructor
    · rintro ⟨q, qs, g, gs, rfl, h1, h2, rfl⟩
      obtain ⟨es, rfl, rfl, rfl, h3⟩ := storedList_iff.1 h2
      refine ⟨(q, c, g) :: es, by simp, by simp, by simp, ?_⟩
      intro e he
      rcases List.mem_cons.1 he with rfl | he
      exacts [h1, h3 e he]
    · rintro ⟨es, rfl, h2, rfl, h3⟩
      cases es with
      | nil => simp at h2
      | cons e es =>
        simp only [List.map_cons, List.cons.injEq] at h2
        obtain ⟨rfl, rfl⟩ := h2
        exact ⟨e.1, es.map (·.1), e.2.2, foot es, rfl, h3 e (by simp),
          storedList_iff.2 ⟨es, rfl, rfl, rfl, fun e he => h3 e (by simp [he])⟩, rfl⟩

/-- The node at `p` and the trees below it. -/
theorem stored_iff {m : Mem α L} {t : CNode L γ} {p : Ptr} {f : List Ptr} :
    Stored same m t p f ↔ ∃ (c : Cell α L) (es : List (Entry L γ)), m p = some c ∧ c.index = t.index ∧
      c.level = t.level ∧ same c.maxDistance t.maxDistance ∧ es.map (·.1) = c.children ∧
      es.map (·.2.1) = t.children ∧ (∀ e ∈ es, Stored same m e.2.1 e.1 e.2.2) ∧ f = p :: foot es := by
  cases t with
  | node i l g cs =>
    rw [Stored]
    constructor
    · rintro ⟨c, fs, h1, h2, h3, h4, h5, rfl⟩
      obtain ⟨es, e1, e2, rfl, e3⟩ := storedList_iff.1 h5
      exact ⟨c, es, h1, h2, h3, h4, e1, e2, e3, rfl⟩
    · rintro ⟨c, es, h1, h2, h3, h4, e1, e2, e3, rfl⟩
      exact ⟨c, foot es, h1, h2, h3, h4, storedList_iff.2 ⟨es, e1, e2, rfl, e3⟩, rfl⟩

theorem Stored.mem_self {m : Mem α L} {t : CNode L γ} {p : Ptr} {f : List Ptr} (h : Stored same m t p f) :
    p ∈ f := by
  obtain ⟨c, es, -, -, -, -, -, -, -, rfl⟩ := stored_iff.1 h
  simp

/-- Only the nodes of the tree matter. -/
theorem holds_congr {m m' : Mem α L} (n : Nat) : ∀ {t : CNode L γ} {p : Ptr} {f : List Ptr}, f.length ≤ n →
    Stored same m t p f → (∀ x ∈ f, m' x = m x) → Stored same m' t p f := by
  induction n with
  | zero =>
    intro t p f hn h _
    have := List.length_pos_of_mem (Stored.mem_self h)
    omega
  | succ n ih =>
    intro t p f hn h hm
    obtain ⟨c, es, h1, h2, h3, h4, h5, h6, h7, rfl⟩ := stored_iff.1 h
    refine stored_iff.2 ⟨c, es, ?_, h2, h3, h4, h5, h6, ?_, rfl⟩
    · rw [hm p (by simp), h1]
    · intro e he
      refine ih ?_ (h7 e he) fun x hx => hm x (List.mem_cons_of_mem _ (mem_foot he hx))
      have := length_le_foot he
      simp at hn
      omega

theorem Stored.congr {m m' : Mem α L} {t : CNode L γ} {p : Ptr} {f : List Ptr} (h : Stored same m t p f)
    (hm : ∀ x ∈ f, m' x = m x) : Stored same m' t p f := holds_congr _ le_rfl h hm

/-- The trees of the list, in a memory. -/
def All (same : α → γ → Prop) (m : Mem α L) (es : List (Entry L γ)) : Prop := ∀ e ∈ es, Stored same m e.2.1 e.1 e.2.2

theorem All.congr {m m' : Mem α L} {es : List (Entry L γ)} (h : All same m es)
    (hm : ∀ x ∈ foot es, m' x = m x) : All same m' es :=
  fun e he => Stored.congr (h e he) fun _ hx => hm _ (mem_foot he hx)

theorem All.tail {m : Mem α L} {e : Entry L γ} {es : List (Entry L γ)} (h : All same m (e :: es)) : All same m es :=
  fun x hx => h x (List.mem_cons_of_mem _ hx)

theorem All.cons {m : Mem α L} {e : Entry L γ} {es : List (Entry L γ)} (h : Stored same m e.2.1 e.1 e.2.2)
    (hs : All same m es) : All same m (e :: es) := by
  intro x hx
  rcases List.mem_cons.1 hx with rfl | hx
  exacts [h, hs x hx]

/-- The node at `q` is a single node with the point of `n`. -/
def Loose (m : Mem α L) (q : Ptr) (n : CNode L Unit) : Prop :=
  ∃ c, m q = some c ∧ c.index = n.index ∧ c.children = [] ∧ n.children = []

theorem Loose.congr {m m' : Mem α L} {q : Ptr} {n : CNode L Unit} (h : Loose m q n) (e : m' q = m q) :
    Loose m' q n := by
  rw [Loose, e]; exact h

/-- The same for lists. -/
def Looses (m : Mem α L) (qs : List Ptr) (ns : List (CNode L Unit)) : Prop := List.Forall₂ (Loose m) qs ns

theorem Looses.congr {m m' : Mem α L} {qs : List Ptr} {ns : List (CNode L Unit)} (h : Looses m qs ns)
    (e : ∀ x ∈ qs, m' x = m x) : Looses m' qs ns := by
  unfold Looses at h ⊢
  induction h with
  | nil => exact .nil
  | cons h _ ih =>
    exact .cons (h.congr (e _ (by simp))) (ih fun x hx => e x (by simp [hx]))

theorem Looses.append {m : Mem α L} {qs qs' : List Ptr} {ns ns' : List (CNode L Unit)} (h : Looses m qs ns)
    (h' : Looses m qs' ns') : Looses m (qs ++ qs') (ns ++ ns') := List.rel_append h h'

theorem Looses.one {m : Mem α L} {q : Ptr} {n : CNode L Unit} (h : Loose m q n) : Looses m [q] [n] :=
  .cons h .nil

theorem Looses.reverse {m : Mem α L} {qs : List Ptr} {ns : List (CNode L Unit)} (h : Looses m qs ns) :
    Looses m qs.reverse ns.reverse := List.rel_reverse h

/-- Trees of the builder: `max_distance` is not set. -/
abbrev Tree (m : Mem α L) (t : CNode L Unit) (p : Ptr) (f : List Ptr) : Prop := Stored (fun _ _ => True) m t p f

theorem tree_iff {m : Mem α L} {t : CNode L Unit} {p : Ptr} {f : List Ptr} :
    Tree m t p f ↔ ∃ (c : Cell α L) (es : List (Entry L Unit)), m p = some c ∧ c.index = t.index ∧
      c.level = t.level ∧ es.map (·.1) = c.children ∧
      es.map (·.2.1) = t.children ∧ All (fun _ _ => True) m es ∧ f = p :: foot es := by
  rw [Tree, stored_iff]
  simp only [true_and, All]

abbrev Trees (m : Mem α L) (es : List (Entry L Unit)) : Prop := All (fun _ _ => True) m es

/-! ### `strip` -/

variable {toMove keep : Nat → Bool}

/-- What `strip` does to one tree. -/
def StripOk (m : Mem α L) (run : Acc α L → Outcome (Acc α L))
    (fn : List (CNode L Unit) × List (CNode L Unit) → List (CNode L Unit) × List (CNode L Unit))
    (f : List Ptr) (Q : Mem α L → Prop) : Prop :=
  ∃ m' dm ds Dm Ds, (∀ am as, run ((am, as), m) = .ok ((am ++ dm, as ++ ds), m')) ∧
    (∀ acc, fn acc = (acc.1 ++ Dm, acc.2 ++ Ds)) ∧ Looses m' dm Dm ∧ Looses m' ds Ds ∧
    (dm ++ ds).Perm f ∧ Q m'

theorem strip_loop (n : Nat) (ih : ∀ (t : CNode L Unit) (p : Ptr) (f : List Ptr) (m : Mem α L), Tree m t p f →
      f.Nodup → f.length ≤ n → ∃ fs, f = p :: fs ∧ StripOk m (strip toMove n p) (Cover.strip toMove t) fs
        fun m' => Loose m' p (t.setChildren []) ∧ ∀ x ∉ f, m' x = m x)
    (p : Ptr) (vec : List Ptr) (es : List (Entry L Unit)) (m : Mem α L) (hm : Trees m es)
    (hf : (foot es).Nodup) (hp : p ∉ foot es) (hn : (foot es).length ≤ n)
    (hv : ∃ c, m p = some c ∧ c.children = vec) :
    StripOk m (forEach Prod.snd p vec (fun s c =>
      (strip toMove n c s).bind fun s =>
      (read s.2 c).bind fun e =>
      .ok (if toMove e.index then ((s.1.1 ++ [c], s.1.2), s.2) else ((s.1.1, s.1.2 ++ [c]), s.2)))
      (es.map (·.1))) (Cover.stripList toMove (es.map (·.2.1))) (foot es) fun m' => ∀ x ∉ foot es, m' x = m x := by
  induction es generalizing m with
  | nil => exact ⟨m, [], [], [], [], fun am as => by simp [forEach], fun acc => by simp [Cover.stripList], .nil, .nil,
      by simp, fun x _ => rfl⟩
  | cons e es ihs =>
    obtain ⟨q, t, f⟩ := e
    simp only [foot_cons] at hf hp hn ⊢
    rw [List.nodup_append] at hf
    obtain ⟨hf1, hf2, hf3⟩ := hf
    rw [List.length_append] at hn
    obtain ⟨fs, rfl, m1, dm, ds, Dm, Ds, r1, r2, l1, l2, pm, lq, fr⟩ :=
      ih t q f m (hm (q, t, f) (by simp)) hf1 (by omega)
    have hd : ∀ x ∈ foot es, x ∉ q :: fs := fun x hx hx' => hf3 x hx' x hx rfl
    have hm1 : Trees m1 es := hm.tail.congr fun x hx => fr x (hd x hx)
    have hp1 : m1 p = m p := fr p fun h => hp (List.mem_append_left _ h)
    obtain ⟨m2, dm', ds', Dm', Ds', r1', r2', l1', l2', pm', fr'⟩ :=
      ihs m1 hm1 hf2 (fun h => hp (List.mem_append_right _ h)) (by omega) (by rw [hp1]; exact hv)
    obtain ⟨c, hc1, hc2⟩ := hv
    obtain ⟨cq, hq1, hq2, hq3, -⟩ := lq
    have hq2' : cq.index = t.index := by rw [hq2]; simp
    have hnq : ∀ x ∈ q :: fs, x ∉ foot es := fun x hx hx' => hd x hx' hx
    have hsub : ∀ x ∈ dm ++ ds, x ∈ q :: fs := fun x hx => List.mem_cons_of_mem _ (pm.mem_iff.1 hx)
    have keep2 : ∀ x ∈ q :: fs, m2 x = m1 x := fun x hx => fr' x (hnq x hx)
    have l1b : Looses m2 dm Dm := l1.congr fun x hx => keep2 x (hsub x (List.mem_append_left _ hx))
    have l2b : Looses m2 ds Ds := l2.congr fun x hx => keep2 x (hsub x (List.mem_append_right _ hx))
    have lqb : Loose m2 q (t.setChildren []) :=
      ⟨cq, by rw [keep2 q (by simp), hq1], hq2, hq3, by simp⟩
    have step : ∀ am as, forEach Prod.snd p vec (fun s c =>
        (strip toMove n c s).bind fun s =>
        (read s.2 c).bind fun e =>
        .ok (if toMove e.index then ((s.1.1 ++ [c], s.1.2), s.2) else ((s.1.1, s.1.2 ++ [c]), s.2)))
        (q :: es.map (·.1)) ((am, as), m) =
        if toMove t.index then .ok ((am ++ dm ++ [q] ++ dm', as ++ ds ++ ds'), m2)
        else .ok ((am ++ dm ++ dm', as ++ ds ++ [q] ++ ds'), m2) := by
      intro am as
      rw [forEach, r1]
      simp only [Outcome.bind_ok, read_ok hq1, hq2']
      by_cases ht : toMove t.index = true
      · simp only [ht, if_true, read_ok (hp1.trans hc1), Outcome.bind_ok, hc2]
        rw [r1']
      · simp only [ht]
        simp only [Bool.false_eq_true, if_false, if_true, read_ok (hp1.trans hc1), Outcome.bind_ok, hc2]
        rw [r1']
    have hfr : ∀ x ∉ q :: fs ++ foot es, m2 x = m x := fun x hx => by
      rw [fr' x fun h => hx (List.mem_append_right _ h), fr x fun h => hx (List.mem_append_left _ h)]
    have hperm : (q :: (dm ++ dm' ++ (ds ++ ds'))).Perm (q :: fs ++ foot es) := by
      rw [List.cons_append, List.perm_cons]
      refine List.Perm.trans ?_ (pm.append pm')
      rw [List.perm_iff_count]
      intro a
      simp only [List.count_append]
      omega
    by_cases ht : toMove t.index = true
    · refine ⟨m2, dm ++ [q] ++ dm', ds ++ ds', Dm ++ [t.setChildren []] ++ Dm', Ds ++ Ds', ?_, ?_,
        (l1b.append (.one lqb)).append l1', l2b.append l2', ?_, hfr⟩
      · intro am as
        simp only [List.map_cons]
        rw [step, if_pos ht]
        simp
      · intro acc
        simp only [List.map_cons]
        rw [Cover.stripList, r2]
        simp [ht, r2']
      · refine List.Perm.trans ?_ hperm
        rw [List.perm_iff_count]
        intro a
        simp only [List.count_append, List.count_cons, List.count_nil]
        omega
    · refine ⟨m2, dm ++ dm', ds ++ [q] ++ ds', Dm ++ Dm', Ds ++ [t.setChildren []] ++ Ds', ?_, ?_,
        l1b.append l1', (l2b.append (.one lqb)).append l2', ?_, hfr⟩
      · intro am as
        simp only [List.map_cons]
        rw [step, if_neg ht]
        simp
      · intro acc
        simp only [List.map_cons]
        rw [Cover.stripList, r2]
        simp [ht, r2']
      · refine List.Perm.trans ?_ hperm
        rw [List.perm_iff_count]
        intro a
        simp only [List.count_append, List.count_cons, List.count_nil]
        omega

/-- `strip` takes the nodes below `p` apart. -/
theorem strip_tree (n : Nat) : ∀ (t : CNode L Unit) (p : Ptr) (f : List Ptr) (m : Mem α L), Tree m t p f →
    f.Nodup → f.length ≤ n → ∃ fs, f = p :: fs ∧ StripOk m (strip toMove n p) (Cover.strip toMove t) fs
      fun m' => Loose m' p (t.setChildren []) ∧ ∀ x ∉ f, m' x = m x := by
  induction n with
  | zero =>
    intro t p f m h _ hn
    have := List.length_pos_of_mem (Stored.mem_self h)
    omega
  | succ n ih =>
    intro t p f m h hf hn
    obtain ⟨c, es, h1, h2, h3, h4, h5, h6, rfl⟩ := tree_iff.1 h
    rw [List.nodup_cons] at hf
    obtain ⟨hp, hf⟩ := hf
    obtain ⟨i, l, g, cs⟩ := t
    simp only [CNode.index, CNode.level, CNode.children] at h2 h3 h5
    subst h5
    refine ⟨foot es, rfl, ?_⟩
    by_cases he : es = []
    · subst he
      have hc : c.children = [] := by rw [← h4]; rfl
      refine ⟨m, [], [], [], [], ?_, ?_, .nil, .nil, by simp, ⟨c, h1, h2, hc, rfl⟩, fun x _ => rfl⟩
      · intro am as
        simp [strip, read_ok h1, Outcome.bind, hc]
      · intro acc
        simp [Cover.strip, Cover.stripList]
    · have hc : c.children ≠ [] := by rw [← h4]; simpa using he
      obtain ⟨m', dm, ds, Dm, Ds, r1, r2, l1, l2, pm, fr⟩ :=
        strip_loop n ih p c.children es m h6 hf hp (by simp at hn; omega) ⟨c, h1, rfl⟩
      have hp' : m' p = some c := by rw [fr p hp, h1]
      have hsub : ∀ x ∈ dm ++ ds, x ≠ p := fun x hx e => hp (e ▸ pm.mem_iff.1 hx)
      refine ⟨Function.update m' p (some { c with children := [] }), dm, ds, Dm, Ds, ?_, ?_, ?_, ?_, pm, ?_, ?_⟩
      · intro am as
        rw [strip]
        simp only [read_ok h1, Outcome.bind_ok, if_neg hc]
        rw [h4] at r1
        simp only [r1, Outcome.bind_ok, read_ok hp', write_ok hp']
      · intro acc
        rw [Cover.strip, r2]
      · exact l1.congr fun x hx => Function.update_of_ne (hsub x (List.mem_append_left _ hx)) _ _
      · exact l2.congr fun x hx => Function.update_of_ne (hsub x (List.mem_append_right _ hx)) _ _
      · exact ⟨{ c with children := [] }, by simp, h2, rfl, rfl⟩
      · intro x hx
        rw [List.mem_cons, not_or] at hx
        rw [Function.update_of_ne hx.1, fr x hx.2]

/-! ### `extract` -/

theorem readIndices_map {m : Mem α L} {es : List (Entry L γ)} (h : All same m es) :
    readIndices m (es.map (·.1)) = .ok (es.map fun e => (e.1, e.2.1.index)) := by
  induction es with
  | nil => rfl
  | cons e es ih =>
    obtain ⟨c, _, h1, h2, _⟩ := stored_iff.1 (h e (by simp))
    simp only [List.map_cons, readIndices, read_ok h1, Outcome.bind_ok, ih h.tail, h2]

/-- The loop over the nodes that are erased. -/
theorem strip_back (n : Nat) (p : Ptr) (vec : List Ptr) (es : List (Entry L Unit)) (m : Mem α L)
    (hm : Trees m es) (hf : (foot es).Nodup) (hp : p ∉ foot es) (hn : (foot es).length ≤ n)
    (hv : ∃ c, m p = some c ∧ c.children = vec) :
    StripOk m (forEach Prod.snd p vec (fun s c => strip toMove n c ((s.1.1 ++ [c], s.1.2), s.2)) (es.map (·.1)))
      (fun acc => (es.map (·.2.1)).foldl (fun acc x => Cover.strip toMove x (acc.1 ++ [x.setChildren []], acc.2)) acc)
      (foot es) fun m' => ∀ x ∉ foot es, m' x = m x := by
  induction es generalizing m with
  | nil => exact ⟨m, [], [], [], [], fun am as => by simp [forEach], fun acc => by simp, .nil, .nil,
      by simp, fun x _ => rfl⟩
  | cons e es ihs =>
    obtain ⟨q, t, f⟩ := e
    simp only [foot_cons] at hf hp hn ⊢
    rw [List.nodup_append] at hf
    obtain ⟨hf1, hf2, hf3⟩ := hf
    rw [List.length_append] at hn
    obtain ⟨fs, rfl, m1, dm, ds, Dm, Ds, r1, r2, l1, l2, pm, lq, fr⟩ :=
      strip_tree (toMove := toMove) n t q f m (hm (q, t, f) (by simp)) hf1 (by omega)
    have hd : ∀ x ∈ foot es, x ∉ q :: fs := fun x hx hx' => hf3 x hx' x hx rfl
    have hm1 : Trees m1 es := hm.tail.congr fun x hx => fr x (hd x hx)
    have hp1 : m1 p = m p := fr p fun h => hp (List.mem_append_left _ h)
    obtain ⟨m2, dm', ds', Dm', Ds', r1', r2', l1', l2', pm', fr'⟩ :=
      ihs m1 hm1 hf2 (fun h => hp (List.mem_append_right _ h)) (by omega) (by rw [hp1]; exact hv)
    obtain ⟨c, hc1, hc2⟩ := hv
    have keep2 : ∀ x ∈ q :: fs, m2 x = m1 x := fun x hx => fr' x fun hx' => hd x hx' hx
    have hsub : ∀ x ∈ dm ++ ds, x ∈ q :: fs := fun x hx => List.mem_cons_of_mem _ (pm.mem_iff.1 hx)
    refine ⟨m2, [q] ++ dm ++ dm', ds ++ ds', [t.setChildren []] ++ Dm ++ Dm', Ds ++ Ds', ?_, ?_, ?_, ?_, ?_, ?_⟩
    · intro am as
      rw [List.map_cons, forEach]
      simp only [r1, Outcome.bind_ok, read_ok (hp1.trans hc1), hc2, if_true]
      rw [r1']
      simp
    · intro acc
      dsimp only
      rw [List.map_cons, List.foldl_cons, r2]
      have := r2' (acc.1 ++ [t.setChildren []] ++ Dm, acc.2 ++ Ds)
      dsimp only at this
      rw [this]
      simp
    · refine Looses.append (Looses.append (.one (lq.congr (keep2 q (by simp)))) ?_) l1'
      exact l1.congr fun x hx => keep2 x (hsub x (List.mem_append_left _ hx))
    · exact (l2.congr fun x hx => keep2 x (hsub x (List.mem_append_right _ hx))).append l2'
    · have : (q :: (dm ++ ds) ++ (dm' ++ ds')).Perm (q :: fs ++ foot es) := (pm.cons q).append pm'
      refine List.Perm.trans ?_ this
      rw [List.perm_iff_count]
      intro a
      simp only [List.count_append, List.count_cons, List.count_nil]
      omega
    · intro x hx
      rw [fr' x fun h => hx (List.mem_append_right _ h), fr x fun h => hx (List.mem_append_left _ h)]

section Extract
variable (P : StdPartition) (depth : Nat)

/-- What `extract` does to one tree. -/
def ExtractOk (toMove keep : Nat → Bool) (fuel F : Nat) : Prop :=
  ∀ (t : CNode L Unit) (p : Ptr) (f : List Ptr) (m : Mem α L) (acc : List (CNode L Unit) × List (CNode L Unit))
    (r : CNode L Unit × (List (CNode L Unit) × List (CNode L Unit))),
    Cover.extract (P.part _) keep toMove fuel t acc = .ok r → Tree m t p f → f.Nodup → f.length ≤ depth →
    ∃ m' f' dm ds Dm Ds, r.2 = (acc.1 ++ Dm, acc.2 ++ Ds) ∧
      (∀ am as, extract P keep toMove depth F p ((am, as), m) = .ok ((am ++ dm, as ++ ds), m')) ∧
      Tree m' r.1 p f' ∧ Looses m' dm Dm ∧ Looses m' ds Ds ∧ (f' ++ (dm ++ ds)).Perm f ∧
      ∀ x ∉ f, m' x = m x

theorem extract_loop {fuel F : Nat} (ih : ExtractOk (α := α) (L := L) P depth toMove keep fuel F) (p : Ptr)
    (vec : List Ptr) (es : List (Entry L Unit)) (m : Mem α L)
    (st st' : List (CNode L Unit) × (List (CNode L Unit) × List (CNode L Unit)))
    (hst : Outcome.foldl (fun st x => (Cover.extract (P.part _) keep toMove fuel x st.2).bind fun r =>
      .ok (r.1 :: st.1, r.2)) st (es.map (·.2.1)) = .ok st')
    (hm : Trees m es) (hf : (foot es).Nodup) (hp : p ∉ foot es) (hn : (foot es).length ≤ depth)
    (hv : ∃ c, m p = some c ∧ c.children = vec) :
    ∃ m' es' dm ds Dm Ds, st'.2 = (st.2.1 ++ Dm, st.2.2 ++ Ds) ∧
      st'.1 = (es'.map (·.2.1)).reverse ++ st.1 ∧ es'.map (·.1) = es.map (·.1) ∧
      (∀ am as, forEach Prod.snd p vec (fun s c => extract P keep toMove depth F c s) (es.map (·.1)) ((am, as), m) =
        .ok ((am ++ dm, as ++ ds), m')) ∧
      Trees m' es' ∧ Looses m' dm Dm ∧ Looses m' ds Ds ∧ (foot es' ++ (dm ++ ds)).Perm (foot es) ∧
      ∀ x ∉ foot es, m' x = m x := by
  induction es generalizing m st with
  | nil =>
    simp only [List.map_nil, Outcome.foldl, Outcome.ok.injEq] at hst
    subst hst
    exact ⟨m, [], [], [], [], [], by simp, by simp, rfl, fun am as => by simp [forEach], hm, .nil, .nil, by simp,
      fun x _ => rfl⟩
  | cons e es ihs =>
    obtain ⟨q, t, f⟩ := e
    simp only [foot_cons] at hf hp hn ⊢
    rw [List.nodup_append] at hf
    obtain ⟨hf1, hf2, hf3⟩ := hf
    rw [List.length_append] at hn
    rw [List.map_cons, Outcome.foldl] at hst
    cases hr : Cover.extract (P.part _) keep toMove fuel t st.2 with
    | ub => rw [hr] at hst; simp at hst
    | oof => rw [hr] at hst; simp [Outcome.bind] at hst
    | ok r =>
      rw [hr] at hst
      simp only [Outcome.bind_ok] at hst
      obtain ⟨m1, f', dm, ds, Dm, Ds, e1, r1, t1, l1, l2, pm, fr⟩ :=
        ih t q f m st.2 r hr (hm (q, t, f) (by simp)) hf1 (by omega)
      have hd : ∀ x ∈ foot es, x ∉ f := fun x hx hx' => hf3 x hx' x hx rfl
      have hm1 : Trees m1 es := hm.tail.congr fun x hx => fr x (hd x hx)
      have hp1 : m1 p = m p := fr p fun h => hp (List.mem_append_left _ h)
      obtain ⟨m2, es', dm', ds', Dm', Ds', e1', e2', e3', r1', t1', l1', l2', pm', fr'⟩ :=
        ihs m1 (r.1 :: st.1, r.2) hst hm1 hf2 (fun h => hp (List.mem_append_right _ h)) (by omega)
          (by rw [hp1]; exact hv)
      obtain ⟨c, hc1, hc2⟩ := hv
      have hsub : ∀ x ∈ f' ++ (dm ++ ds), x ∈ f := fun x hx => pm.mem_iff.1 hx
      have keep2 : ∀ x ∈ f' ++ (dm ++ ds), m2 x = m1 x :=
        fun x hx => fr' x fun hx' => hd x hx' (hsub x hx)
      refine ⟨m2, (q, r.1, f') :: es', dm ++ dm', ds ++ ds', Dm ++ Dm', Ds ++ Ds', ?_, ?_, ?_, ?_, ?_, ?_, ?_, ?_, ?_⟩
      · rw [e1', e1]; simp
      · rw [e2']; simp
      · simp [e3']
      · intro am as
        rw [List.map_cons, forEach]
        simp only [r1, Outcome.bind_ok, read_ok (hp1.trans hc1), hc2, if_true]
        rw [r1']
        simp
      · exact All.cons (Stored.congr t1 fun x hx => keep2 x (List.mem_append_left _ hx)) t1'
      · exact (l1.congr fun x hx => keep2 x (by simp [hx])).append l1'
      · exact (l2.congr fun x hx => keep2 x (by simp [hx])).append l2'
      · refine List.Perm.trans ?_ (pm.append pm')
        rw [List.perm_iff_count]
        intro a
        simp only [foot_cons, List.count_append]
        omega
      · intro x hx
        rw [fr' x fun h => hx (List.mem_append_right _ h), fr x fun h => hx (List.mem_append_left _ h)]

/-- `extract` takes the same nodes off the tree, in the same order. -/
theorem extract_tree (fuel : Nat) : ∀ F, fuel ≤ F → ExtractOk (α := α) (L := L) P depth toMove keep fuel F := by
  induction fuel with
  | zero =>
    intro F _ t p f m acc r h
    simp [Cover.extract] at h
  | succ fuel ih =>
    intro F hF t p f m acc r h ht hf hn
    obtain ⟨F, rfl⟩ : ∃ g, F = g + 1 := ⟨F - 1, by omega⟩
    obtain ⟨c, es, h1, h2, h3, h4, h5, h6, rfl⟩ := tree_iff.1 ht
    rw [List.nodup_cons] at hf
    obtain ⟨hp, hf⟩ := hf
    by_cases he : es = []
    · subst he
      have hc : c.children = [] := by rw [← h4]; rfl
      have htc : t.children = [] := by rw [← h5]; rfl
      rw [Cover.extract, htc] at h
      simp only [Outcome.ok.injEq] at h
      subst h
      exact ⟨m, [p], [], [], [], [], by simp, fun am as => by simp [extract, read_ok h1, hc], ht, .nil, .nil,
        by simp, fun x _ => rfl⟩
    · have hc : c.children ≠ [] := by rw [← h4]; simpa using he
      -- the two parts
      obtain ⟨esF, hF1⟩ : ∃ l, l = (P.part (Entry L Unit)).front (fun e => keep e.2.1.index) es := ⟨_, rfl⟩
      obtain ⟨esB, hB1⟩ : ∃ l, l = (P.part (Entry L Unit)).back (fun e => keep e.2.1.index) es := ⟨_, rfl⟩
      have hperm : (esF ++ esB).Perm es := by rw [hF1, hB1]; exact (P.part _).perm _ _
      have hfp : (foot esF ++ foot esB).Perm (foot es) := by rw [← foot_append]; exact foot_perm hperm
      have hnd : (foot esF ++ foot esB).Nodup := hfp.nodup_iff.2 hf
      rw [List.nodup_append] at hnd
      obtain ⟨hndF, hndB, hdis⟩ := hnd
      have hlen := hfp.length_eq
      rw [List.length_append] at hlen
      rw [List.length_cons] at hn
      have ptrF : ((P.part (Ptr × Nat)).front (fun x => keep x.2) (es.map fun e => (e.1, e.2.1.index))).map Prod.fst =
          esF.map (·.1) := by
        rw [P.front_map, hF1, List.map_map]; rfl
      have ptrB : ((P.part (Ptr × Nat)).back (fun x => keep x.2) (es.map fun e => (e.1, e.2.1.index))).map Prod.fst =
          esB.map (·.1) := by
        rw [P.back_map, hB1, List.map_map]; rfl
      have treeF : (P.part (CNode L Unit)).front (fun x => keep x.index) t.children = esF.map (·.2.1) := by
        rw [← h5, P.front_map, hF1]
      have treeB : (P.part (CNode L Unit)).back (fun x => keep x.index) t.children = esB.map (·.2.1) := by
        rw [← h5, P.back_map, hB1]
      -- the value
      have hfn : (Outcome.foldl (fun st x => (Cover.extract (P.part _) keep toMove fuel x st.2).bind fun r =>
          .ok (r.1 :: st.1, r.2)) ([], ((esB.reverse).map (·.2.1)).foldl
            (fun acc x => Cover.strip toMove x (acc.1 ++ [x.setChildren []], acc.2)) acc)
          ((esF.reverse).map (·.2.1))).bind (fun st => .ok (t.setChildren st.1, st.2)) = .ok r := by
        rw [← h, Cover.extract]
        have hne : t.children ≠ [] := by rw [← h5]; simpa using he
        obtain ⟨a, as, ha⟩ := List.exists_cons_of_ne_nil hne
        rw [ha]
        dsimp only
        rw [← ha, treeF, treeB, ← List.map_reverse, ← List.map_reverse]
      -- the memory
      obtain ⟨vec, hvec⟩ : ∃ v, v = esF.map (·.1) ++ esB.map (·.1) := ⟨_, rfl⟩
      obtain ⟨m1, hm1⟩ : ∃ m1, m1 = Function.update m p (some { c with children := vec }) := ⟨_, rfl⟩
      have hm1p : m1 p = some { c with children := vec } := by rw [hm1]; simp
      have hm1o : ∀ x, x ≠ p → m1 x = m x := fun x hx => by rw [hm1, Function.update_of_ne hx]
      have hT1 : Trees m1 es := h6.congr fun x hx => hm1o x fun e => hp (e ▸ hx)
      have hTF : Trees m1 esF.reverse := fun e he =>
        hT1 e (hperm.mem_iff.1 (List.mem_append_left _ (List.mem_reverse.1 he)))
      have hTB : Trees m1 esB.reverse := fun e he =>
        hT1 e (hperm.mem_iff.1 (List.mem_append_right _ (List.mem_reverse.1 he)))
      have pF : (foot esF.reverse).Perm (foot esF) := foot_perm esF.reverse_perm
      have pB : (foot esB.reverse).Perm (foot esB) := foot_perm esB.reverse_perm
      have hpF : p ∉ foot esF.reverse := fun hx => hp (hfp.mem_iff.1 (List.mem_append_left _ (pF.mem_iff.1 hx)))
      have hpB : p ∉ foot esB.reverse := fun hx => hp (hfp.mem_iff.1 (List.mem_append_right _ (pB.mem_iff.1 hx)))
      have hFB : ∀ x ∈ foot esF.reverse, x ∉ foot esB.reverse := fun x hx hx' =>
        hdis x (pF.mem_iff.1 hx) x (pB.mem_iff.1 hx') rfl
      obtain ⟨m2, dm, ds, Dm, Ds, r1, r2, l1, l2, pm, fr⟩ := strip_back (toMove := toMove) depth p vec esB.reverse m1
        hTB (pB.nodup_iff.2 hndB) hpB (by rw [pB.length_eq]; omega) ⟨_, hm1p, rfl⟩
      dsimp only at r2
      rw [r2] at hfn
      have hm2p : m2 p = some { c with children := vec } := by rw [fr p hpB, hm1p]
      have hTF2 : Trees m2 esF.reverse := hTF.congr fun x hx => fr x (hFB x hx)
      cases hst : Outcome.foldl (fun st x => (Cover.extract (P.part _) keep toMove fuel x st.2).bind fun r =>
          .ok (r.1 :: st.1, r.2)) ([], (acc.1 ++ Dm, acc.2 ++ Ds)) ((esF.reverse).map (·.2.1)) with
      | ub => rw [hst] at hfn; simp at hfn
      | oof => rw [hst] at hfn; simp [Outcome.bind] at hfn
      | ok st =>
        rw [hst] at hfn
        simp only [Outcome.bind_ok, Outcome.ok.injEq] at hfn
        obtain ⟨m3, es', dm', ds', Dm', Ds', e1, e2, e3, r1', t1', l1', l2', pm', fr'⟩ :=
          extract_loop P depth (ih F (by omega)) p vec esF.reverse m2 _ st hst hTF2 (pF.nodup_iff.2 hndF) hpF
            (by rw [pF.length_eq]; omega) ⟨_, hm2p, rfl⟩
        have hm3p : m3 p = some { c with children := vec } := by rw [fr' p hpF, hm2p]
        have hsubB : ∀ x ∈ dm ++ ds, x ∈ foot esB.reverse := fun x hx => pm.mem_iff.1 hx
        have hsubF : ∀ x ∈ foot es' ++ (dm' ++ ds'), x ∈ foot esF.reverse := fun x hx => pm'.mem_iff.1 hx
        obtain ⟨m4, hm4⟩ : ∃ m4, m4 = Function.update m3 p (some { c with children := esF.map (·.1) }) := ⟨_, rfl⟩
        have hm4o : ∀ x, x ≠ p → m4 x = m3 x := fun x hx => by rw [hm4, Function.update_of_ne hx]
        have hm4F : ∀ x ∈ foot es' ++ (dm' ++ ds'), m4 x = m3 x := fun x hx =>
          hm4o x fun e => hpF (e ▸ hsubF x hx)
        have hm4B : ∀ x ∈ dm ++ ds, m4 x = m2 x := fun x hx => by
          rw [hm4o x fun e => hpB (e ▸ hsubB x hx), fr' x fun hx' => hFB x hx' (hsubB x hx)]
        refine ⟨m4, p :: foot es'.reverse, dm ++ dm', ds ++ ds', Dm ++ Dm', Ds ++ Ds', ?_, ?_, ?_, ?_, ?_, ?_, ?_⟩
        · rw [← hfn, e1]; simp
        · intro am as
          rw [extract]
          simp only [read_ok h1, Outcome.bind_ok, if_neg hc]
          simp only [← h4, readIndices_map h6, Outcome.bind_ok, ptrF, ptrB, write_ok h1]
          rw [← hvec, ← hm1, ← List.map_reverse, ← List.map_reverse, r1]
          simp only [Outcome.bind_ok]
          rw [r1']
          simp only [Outcome.bind_ok, read_ok hm3p, write_ok hm3p]
          have : vec.take (esF.map (·.1)).length = esF.map (·.1) := by rw [hvec, List.take_left]
          rw [this, ← hm4]
          simp
        · refine tree_iff.2 ⟨{ c with children := esF.map (·.1) }, es'.reverse, by rw [hm4]; simp, ?_, ?_, ?_, ?_, ?_, rfl⟩
          · rw [← hfn]; simpa using h2
          · rw [← hfn]; simpa using h3
          · dsimp only
            rw [List.map_reverse, e3, ← List.map_reverse, List.reverse_reverse]
          · rw [← hfn, Cover.children_setChildren, e2, List.map_reverse]
            simp
          · intro e he
            exact Stored.congr (t1' e (List.mem_reverse.1 he)) fun x hx =>
              hm4F x (List.mem_append_left _ (mem_foot (List.mem_reverse.1 he) hx))
        · exact (l1.congr fun x hx => hm4B x (by simp [hx])).append (l1'.congr fun x hx => hm4F x (by simp [hx]))
        · exact (l2.congr fun x hx => hm4B x (by simp [hx])).append (l2'.congr fun x hx => hm4F x (by simp [hx]))
        · rw [List.cons_append, List.perm_cons]
          have q1 := (pm'.trans pF).append (pm.trans pB)
          refine List.Perm.trans ?_ (q1.trans hfp)
          have q2 : (foot es'.reverse).Perm (foot es') := foot_perm es'.reverse_perm
          rw [List.perm_iff_count]
          intro a
          have := q2.count_eq a
          simp only [List.count_append]
          omega
        · intro x hx
          rw [List.mem_cons, not_or] at hx
          have hxe : ¬ x ∈ foot esF ++ foot esB := fun h => hx.2 (hfp.mem_iff.1 h)
          rw [List.mem_append, not_or] at hxe
          rw [hm4o x hx.1, fr' x fun h => hxe.1 (pF.mem_iff.1 h), fr x fun h => hxe.2 (pB.mem_iff.1 h), hm1o x hx.1]

end Extract

end Pico.CoverMem
