import Verif.Proof.CoverMemBuild

/-!
# The cover tree in memory: the buffers, the copy, the recorded distances and the searches
-/

namespace Pico.CoverMem

open Spec

variable {α L γ : Type} {M : Malloc} {V : StdVector}

/-! ### New nodes -/

theorem allocate_ok (c : Cell α L) (b : Buffer) (w : World α L) (h : b.size < b.cap) :
    b.allocate M V c w = ((b.block, b.size), ⟨b.block, b.size + 1, b.cap⟩,
      { w with cell := Function.update w.cell (b.block, b.size) (some c) }) := by
  simp only [Buffer.allocate, if_pos h]

theorem createNode_ok (B : Leveling α L) (max₀ : α) (idx : Nat) (b : Buffer) (w : World α L) (h : b.size < b.cap) :
    createNode M V B max₀ idx b w = .ok ((b.block, b.size), ⟨b.block, b.size + 1, b.cap⟩,
      { w with cell := Function.update w.cell (b.block, b.size) (some ⟨B.unset, max₀, idx, []⟩) }) := by
  rw [createNode]
  simp only [allocate_ok _ b w h]
  have hr : Function.update w.cell (b.block, b.size) (some (blank B.unset max₀)) (b.block, b.size) =
      some (blank B.unset max₀) := by simp
  simp only [read_ok hr, Outcome.bind_ok, write_ok hr, Function.update_idem]
  simp only [blank]

/-- The tree the builder works on: it is in the block of the buffer, and nothing else has changed. -/
structure Building (w₀ : World α L) (n : Nat) (b : Buffer) (w : World α L) (t : CNode L Unit) (p : Ptr)
    (f : List Ptr) : Prop where
  tree : Tree w.cell t p f
  nodup : f.Nodup
  inside : ∀ x ∈ f, x.1 = b.block ∧ x.2 < b.size
  len : f.length = b.size
  cap : n ≤ b.cap
  live : w.live = b.block :: w₀.live
  fresh : b.block ∉ w₀.live
  same : ∀ x : Ptr, x.1 ≠ b.block → w.cell x = w₀.cell x

section Insert
variable [LT α] [LE α] [DecidableLT α] [DecidableLE α] {B : Leveling α L} {P : StdPartition}
  {dist : Nat → Nat → α} {max₀ : α}

omit [LT α] [LE α] [DecidableLT α] [DecidableLE α] in
theorem insertFirstTwo_building {w₀ w : World α L} {b : Buffer} {indices : List Nat} {st : CNode L Unit × Nat}
    (h : Cover.insertFirstTwo B dist indices.length indices = .ok st) (hb : b.size = 0)
    (hcap : indices.length ≤ b.cap) (hl : w.live = b.block :: w₀.live) (hf : b.block ∉ w₀.live)
    (hs : ∀ x : Ptr, x.1 ≠ b.block → w.cell x = w₀.cell x) :
    ∃ p b' w' f, insertFirstTwo M V B dist max₀ b w indices = .ok (p, b', w') ∧ b'.size = st.2 ∧
      b'.size = min 2 indices.length ∧
      b'.block = b.block ∧ Building w₀ indices.length b' w' st.1 p f := by
  match indices with
  | [] => simp [Cover.insertFirstTwo] at h
  | [i] =>
    simp only [Cover.insertFirstTwo, Cover.createNode, bufferAllocate, List.length_singleton] at h
    simp only [Nat.lt_one_iff, if_true, Outcome.bind_ok, Outcome.ok.injEq] at h
    subst h
    have hsz : b.size < b.cap := by simp at hcap; omega
    rw [insertFirstTwo, createNode_ok B max₀ i b w hsz]
    have hr : Function.update w.cell (b.block, b.size) (some (⟨B.unset, max₀, i, []⟩ : Cell α L)) (b.block, b.size) =
        some ⟨B.unset, max₀, i, []⟩ := by simp
    simp only [Outcome.bind_ok, read_ok hr, write_ok hr, Function.update_idem]
    refine ⟨_, _, _, [(b.block, b.size)], rfl, by simp [hb], by simp [hb], rfl, ?_⟩
    refine ⟨tree_iff.2 ⟨⟨B.zero, max₀, i, []⟩, [], by simp, rfl, rfl, rfl, rfl, by simp [All], rfl⟩, by simp, by simp,
      by simp [hb], hcap, hl, hf, fun x hx => ?_⟩
    dsimp only at hx ⊢
    rw [Function.update_of_ne (fun e => hx (by rw [e])), hs x hx]
  | i :: j :: rest =>
    simp only [Cover.insertFirstTwo, Cover.createNode, bufferAllocate, List.length_cons] at h
    rw [if_pos (by omega), Outcome.bind_ok, Outcome.bind_ok, if_pos (by omega)] at h
    simp only [Outcome.bind_ok, Outcome.ok.injEq] at h
    subst h
    simp only [List.length_cons] at hcap
    rw [insertFirstTwo, createNode_ok B max₀ i b w (by omega)]
    have hr : Function.update w.cell (b.block, b.size) (some (⟨B.unset, max₀, i, []⟩ : Cell α L)) (b.block, b.size) =
        some ⟨B.unset, max₀, i, []⟩ := by simp
    simp only [Outcome.bind_ok, read_ok hr, write_ok hr, Function.update_idem]
    rw [createNode_ok B max₀ j _ _ (by dsimp only; omega)]
    simp only [Outcome.bind_ok]
    obtain ⟨m1, hm1⟩ : ∃ m1, m1 = Function.update (Function.update w.cell (b.block, b.size)
      (some (⟨B.ceilLevel (dist i j), max₀, i, []⟩ : Cell α L))) (b.block, b.size + 1)
      (some ⟨B.unset, max₀, j, []⟩) := ⟨_, rfl⟩
    rw [← hm1]
    have hne : ((b.block, b.size) : Ptr) ≠ (b.block, b.size + 1) := by simp
    have k1 : m1 (b.block, b.size) = some ⟨B.ceilLevel (dist i j), max₀, i, []⟩ := by
      rw [hm1, Function.update_of_ne hne]; simp
    have k2 : m1 (b.block, b.size + 1) = some ⟨B.unset, max₀, j, []⟩ := by rw [hm1]; simp
    obtain ⟨m2, e1, e2, e3⟩ := pushChild_tree B (m := m1)
      (t := (CNode.node i B.unset () []).setLevel (B.ceilLevel (dist i j))) (n := .node j B.unset () [])
      (p := (b.block, b.size)) (q := (b.block, b.size + 1)) (f := [(b.block, b.size)]) (g := [(b.block, b.size + 1)])
      (tree_iff.2 ⟨_, [], k1, rfl, rfl, rfl, rfl, by simp [All], rfl⟩)
      (tree_iff.2 ⟨_, [], k2, rfl, rfl, rfl, rfl, by simp [All], rfl⟩) (by simp)
    rw [e1]
    refine ⟨_, _, _, _, rfl, by simp [hb], by simp [hb], rfl, ⟨e2, by simp, ?_, by simp [hb], ?_, hl, hf, ?_⟩⟩
    · intro x hx
      simp only [List.mem_append, List.mem_singleton] at hx
      rcases hx with rfl | rfl
      · simp; omega
      · simp
    · simpa using hcap
    · intro x hx
      dsimp only at hx ⊢
      rw [e3 x (by
        simp only [List.mem_append, List.mem_singleton, not_or]
        exact ⟨fun e => hx (by rw [e]), fun e => hx (by rw [e])⟩), hm1, Function.update_of_ne (fun e => hx (by rw [e])),
        Function.update_of_ne (fun e => hx (by rw [e])), hs x hx]

theorem insertLoop_building [Add α] {w₀ : World α L} {n depth fuel F : Nat} (hF : fuel ≤ F) (hdepth : n ≤ depth)
    (rest : List Nat) : ∀ (b : Buffer) (w : World α L) (t : CNode L Unit) (p : Ptr) (f : List Ptr)
    (st : CNode L Unit × Nat),
    Outcome.foldl (fun (st : CNode L Unit × Nat) i =>
      (Cover.createNode B n st.2 i).bind fun c =>
      (Cover.insert B (P.part _) dist fuel st.1 c.1).bind fun tree => .ok (tree, c.2)) (t, b.size) rest = .ok st →
    Building w₀ n b w t p f →
    ∃ p' b' w' f', Outcome.foldl (fun (st : Ptr × Buffer × World α L) i =>
        (createNode M V B max₀ i st.2.1 st.2.2).bind fun c =>
        (insert B P dist depth F st.1 c.1 c.2.2.cell).bind fun r =>
        .ok (r.1, c.2.1, { c.2.2 with cell := r.2 })) (p, b, w) rest = .ok (p', b', w') ∧
      b'.size = b.size + rest.length ∧ b'.block = b.block ∧ Building w₀ n b' w' st.1 p' f' := by
  induction rest with
  | nil =>
    intro b w t p f st h hb
    simp only [Outcome.foldl, Outcome.ok.injEq] at h
    subst h
    exact ⟨p, b, w, f, rfl, rfl, rfl, hb⟩
  | cons i rest ih =>
    intro b w t p f st h hb
    rw [Outcome.foldl] at h
    simp only [Cover.createNode, bufferAllocate] at h
    by_cases hsz : b.size < n
    · rw [if_pos hsz] at h
      simp only [Outcome.bind_ok] at h
      cases hi : Cover.insert B (P.part _) dist fuel t (.node i B.unset () []) with
      | ub => rw [hi] at h; simp at h
      | oof => rw [hi] at h; simp [Outcome.bind] at h
      | ok t1 =>
        rw [hi] at h
        simp only [Outcome.bind_ok] at h
        obtain ⟨m1, hm1⟩ : ∃ m1, m1 = Function.update w.cell (b.block, b.size)
          (some (⟨B.unset, max₀, i, []⟩ : Cell α L)) := ⟨_, rfl⟩
        have hnew : ((b.block, b.size) : Ptr) ∉ f := fun hx => absurd (hb.inside _ hx).2 (lt_irrefl _)
        have k1 : ∀ x, x ≠ (b.block, b.size) → m1 x = w.cell x := fun x hx => by
          rw [hm1, Function.update_of_ne hx]
        obtain ⟨p1, m2, f1, e1, e2, e3, e4⟩ := insert_tree (depth := depth) (P := P) hF hi
          (q := (b.block, b.size)) (m := m1) (p := p) (f := f)
          (Stored.congr hb.tree fun x hx => k1 x fun e => hnew (e ▸ hx))
          ⟨⟨B.unset, max₀, i, []⟩, by rw [hm1]; simp, rfl, rfl, rfl⟩ (List.nodup_cons.2 ⟨hnew, hb.nodup⟩) (by
            rw [List.length_cons, hb.len]; omega)
        have hnd : (((b.block, b.size) : Ptr) :: f).Nodup := List.nodup_cons.2 ⟨hnew, hb.nodup⟩
        obtain ⟨p', b', w', f', g1, g0, g2, g3⟩ := ih ⟨b.block, b.size + 1, b.cap⟩ { w with cell := m2 } t1 p1 f1 st h
          ⟨e2, e3.nodup_iff.2 hnd, fun x hx => by
            rcases List.mem_cons.1 (e3.mem_iff.1 hx) with rfl | hx
            · simp
            · exact ⟨(hb.inside x hx).1, Nat.lt_succ_of_lt (hb.inside x hx).2⟩, by
            rw [e3.length_eq, List.length_cons, hb.len], hb.cap, hb.live, hb.fresh, fun x hx => by
            dsimp only at hx ⊢
            rw [e4 x fun h => hx (by
              rcases List.mem_cons.1 h with rfl | h
              · rfl
              · exact (hb.inside x h).1), k1 x fun e => hx (by rw [e]), hb.same x hx]⟩
        refine ⟨p', b', w', f', ?_, by rw [g0, List.length_cons]; dsimp only; omega, g2, g3⟩
        rw [Outcome.foldl]
        dsimp only
        rw [createNode_ok B max₀ i b w (by have := hb.cap; omega), ← hm1]
        simp only [Outcome.bind_ok, e1]
        exact g1
    · rw [if_neg hsz] at h
      simp at h

theorem insertAll_building [Add α] {w₀ w : World α L} {b : Buffer} {depth fuel F : Nat} {indices : List Nat}
    {t : CNode L Unit} (hF : fuel ≤ F) (hdepth : indices.length ≤ depth)
    (h : Cover.insertAll B (P.part _) dist fuel indices = .ok t) (hb : b.size = 0)
    (hcap : indices.length ≤ b.cap) (hl : w.live = b.block :: w₀.live) (hf : b.block ∉ w₀.live)
    (hs : ∀ x : Ptr, x.1 ≠ b.block → w.cell x = w₀.cell x) :
    ∃ p b' w' f, insertAll M V B P dist max₀ depth F indices b w = .ok (p, b', w') ∧
      b'.size = indices.length ∧ b'.block = b.block ∧
      Building w₀ indices.length b' w' t p f := by
  rw [Cover.insertAll] at h
  cases h1 : Cover.insertFirstTwo B dist indices.length indices with
  | ub => rw [h1] at h; simp at h
  | oof => rw [h1] at h; simp [Outcome.bind] at h
  | ok st =>
    rw [h1] at h
    simp only [Outcome.bind_ok] at h
    obtain ⟨p, b1, w1, f, e1, e2, e0, e3, e4⟩ :=
      insertFirstTwo_building (M := M) (V := V) (max₀ := max₀) h1 hb hcap hl hf hs
    cases h2 : Outcome.foldl (fun (st : CNode L Unit × Nat) i =>
      (Cover.createNode B indices.length st.2 i).bind fun c =>
      (Cover.insert B (P.part _) dist fuel st.1 c.1).bind fun tree => .ok (tree, c.2)) st (indices.drop 2) with
    | ub => rw [h2] at h; simp at h
    | oof => rw [h2] at h; simp [Outcome.bind] at h
    | ok st' =>
      rw [h2] at h
      simp only [Outcome.bind_ok, Outcome.ok.injEq] at h
      subst h
      have hst : st = (st.1, b1.size) := by rw [e2]
      rw [hst] at h2
      obtain ⟨p', b', w', f', g1, g0, g2, g3⟩ := insertLoop_building (M := M) (V := V) (max₀ := max₀) hF hdepth
        (indices.drop 2) b1 w1 st.1 p f st' h2 e4
      exact ⟨p', b', w', f', by rw [insertAll, e1]; exact g1, by
        rw [g0, e0, List.length_drop]; omega, g2.trans e3, g3⟩

end Insert

/-! ### The copy -/

/-- The addresses from `k` on of a block. -/
def span (b k n : Nat) : List Ptr := (List.range' k n).map fun i => (b, i)

@[simp] theorem length_span (b k n : Nat) : (span b k n).length = n := by simp [span]

theorem span_add (b k n n' : Nat) : span b k (n + n') = span b k n ++ span b (k + n) n' := by
  rw [span, ← List.range'_append_1, List.map_append]; rfl

theorem span_succ (b k n : Nat) : span b k (n + 1) = (b, k) :: span b (k + 1) n := by
  simp [span, List.range'_succ]

theorem mem_span {b k n : Nat} {x : Ptr} : x ∈ span b k n ↔ x.1 = b ∧ k ≤ x.2 ∧ x.2 < k + n := by
  obtain ⟨x1, x2⟩ := x
  simp only [span, List.mem_map, List.mem_range'_1, Prod.mk.injEq]
  constructor
  · rintro ⟨i, h1, h2, rfl⟩
    exact ⟨h2.symm, h1⟩
  · rintro ⟨rfl, h⟩
    exact ⟨x2, h, rfl, rfl⟩

section Copy
variable {B : Leveling α L} {max₀ : α}

/-- What the copy of one tree does. -/
def CopyOk (M : Malloc) (V : StdVector) (B : Leveling α L) (max₀ : α) (n : Nat) : Prop :=
  ∀ (t : CNode L Unit) (p : Ptr) (f : List Ptr) (b : Buffer) (w : World α L), Tree w.cell t p f → f.length ≤ n →
    (∀ x ∈ f, x.1 ≠ b.block) → b.size + f.length ≤ b.cap →
    ∃ m', bufferCopy M V B max₀ n p (b, w) =
        .ok ((b.block, b.size), ⟨b.block, b.size + f.length, b.cap⟩, { w with cell := m' }) ∧
      Tree m' t (b.block, b.size) (span b.block b.size f.length) ∧ (∀ x : Ptr, x.1 ≠ b.block → m' x = w.cell x) ∧
      ∀ k < b.size, m' (b.block, k) = w.cell (b.block, k)

theorem copy_loop {n : Nat} (ih : CopyOk M V B max₀ n) (p : Ptr) (vec : List Ptr) (k₀ : Nat)
    (es : List (Entry L Unit)) : ∀ (b : Buffer) (w : World α L) (c₀ : Cell α L), Trees w.cell es →
    (foot es).length ≤ n → (∀ x ∈ foot es, x.1 ≠ b.block) → p.1 ≠ b.block → b.size + (foot es).length ≤ b.cap →
    k₀ < b.size → w.cell (b.block, k₀) = some c₀ → (∃ c, w.cell p = some c ∧ c.children = vec) →
    ∃ m' es', forEach (fun s : Buffer × World α L => s.2.cell) p vec (fun s q =>
        (bufferCopy M V B max₀ n q s).bind fun t =>
        (read t.2.2.cell (b.block, k₀)).bind fun c =>
        (write t.2.2.cell (b.block, k₀) { c with children := c.children ++ [t.1] }).bind fun m =>
        .ok (t.2.1, { t.2.2 with cell := m })) (es.map (·.1)) (b, w) =
          .ok (⟨b.block, b.size + (foot es).length, b.cap⟩, { w with cell := m' }) ∧
      m' (b.block, k₀) = some { c₀ with children := c₀.children ++ es'.map (·.1) } ∧
      es'.map (·.2.1) = es.map (·.2.1) ∧ Trees m' es' ∧ foot es' = span b.block b.size (foot es).length ∧
      (∀ x : Ptr, x.1 ≠ b.block → m' x = w.cell x) ∧
      ∀ k < b.size, k ≠ k₀ → m' (b.block, k) = w.cell (b.block, k) := by
  induction es with
  | nil =>
    intro b w c₀ _ _ _ _ _ _ hc₀ _
    exact ⟨w.cell, [], by simp [forEach], by simp [hc₀], rfl, by simp [All], rfl, fun _ _ => rfl, fun _ _ _ => rfl⟩
  | cons e es ihs =>
    intro b w c₀ hm hn hb hp hcap hk hc₀ hv
    obtain ⟨q, t, f⟩ := e
    simp only [foot_cons, List.length_append] at hn hcap hb ⊢
    obtain ⟨m1, e1, e2, e3, e4⟩ := ih t q f b w (hm (q, t, f) (by simp)) (by omega)
      (fun x hx => hb x (List.mem_append_left _ hx)) (by omega)
    obtain ⟨m2, hm2⟩ : ∃ m2, m2 = Function.update m1 (b.block, k₀)
      (some { c₀ with children := c₀.children ++ [(b.block, b.size)] }) := ⟨_, rfl⟩
    have k2 : ∀ x, x ≠ (b.block, k₀) → m2 x = m1 x := fun x hx => by rw [hm2, Function.update_of_ne hx]
    have hm1k : m1 (b.block, k₀) = some c₀ := by rw [e4 k₀ hk, hc₀]
    have hout : ∀ x : Ptr, x.1 ≠ b.block → m2 x = w.cell x := fun x hx => by
      rw [k2 x fun e => hx (by rw [e]), e3 x hx]
    obtain ⟨c, hv1, hv2⟩ := hv
    obtain ⟨m3, es', g1, g2, g3, g4, g5, g6, g7⟩ := ihs ⟨b.block, b.size + f.length, b.cap⟩ { w with cell := m2 }
      { c₀ with children := c₀.children ++ [(b.block, b.size)] }
      (hm.tail.congr fun x hx => hout x (hb x (List.mem_append_right _ hx))) (by omega)
      (fun x hx => hb x (List.mem_append_right _ hx)) hp (by dsimp only; omega) (by dsimp only; omega) (by
        dsimp only; rw [hm2]; simp) ⟨c, by dsimp only; rw [hout p hp, hv1], hv2⟩
    have hlt : (span b.block b.size f.length).length = f.length := length_span _ _ _
    refine ⟨m3, ((b.block, b.size), t, span b.block b.size f.length) :: es', ?_, ?_, ?_, ?_, ?_, ?_, ?_⟩
    · rw [List.map_cons, forEach]
      simp only [e1, Outcome.bind_ok, read_ok hm1k, write_ok hm1k]
      rw [← hm2]
      have hp2 : m2 p = some c := by rw [hout p hp, hv1]
      simp only [read_ok hp2, Outcome.bind_ok, hv2, if_true]
      rw [g1]
      simp [Nat.add_assoc]
    · rw [g2]; simp
    · simp [g3]
    · refine All.cons (Stored.congr e2 fun x hx => ?_) g4
      obtain ⟨x1, x2⟩ := x
      obtain ⟨y1, y2, y3⟩ := mem_span.1 hx
      dsimp only at y1 y2 y3
      subst y1
      have := g7 x2 (by dsimp only; omega) (by omega)
      dsimp only at this
      rw [this, k2 _ (by simp only [ne_eq, Prod.mk.injEq, true_and]; omega)]
    · rw [foot_cons, g5]
      dsimp only
      rw [span_add]
    · intro x hx
      rw [g6 x hx]
      exact hout x hx
    · intro k hk' hne
      have := g7 k (by dsimp only; omega) hne
      dsimp only at this
      rw [this, k2 _ (by simp only [ne_eq, Prod.mk.injEq, true_and]; exact hne), e4 k hk']

theorem copy_tree (n : Nat) : CopyOk M V B max₀ n := by
  induction n with
  | zero =>
    intro t p f b w h hn
    have := List.length_pos_of_mem (Stored.mem_self h)
    omega
  | succ n ih =>
    intro t p f b w h hn hb hcap
    obtain ⟨c, es, h1, h2, h3, h4, h5, h6, rfl⟩ := tree_iff.1 h
    simp only [List.length_cons] at hn hcap ⊢
    have hp : p.1 ≠ b.block := hb p (by simp)
    have hpk : p ≠ (b.block, b.size) := fun e => hp (by rw [e])
    obtain ⟨m1, hm1⟩ : ∃ m1, m1 = Function.update w.cell (b.block, b.size)
      (some (⟨c.level, max₀, c.index, []⟩ : Cell α L)) := ⟨_, rfl⟩
    have k1 : ∀ x, x ≠ (b.block, b.size) → m1 x = w.cell x := fun x hx => by rw [hm1, Function.update_of_ne hx]
    obtain ⟨m2, es', g1, g2, g3, g4, g5, g6, g7⟩ := copy_loop ih p c.children b.size es
      ⟨b.block, b.size + 1, b.cap⟩ { w with cell := m1 } ⟨c.level, max₀, c.index, []⟩
      (h6.congr fun x hx => k1 x fun e => hb x (by simp [hx]) (by rw [e])) (by omega)
      (fun x hx => hb x (by simp [hx])) hp (by dsimp only; omega) (by dsimp only; omega) (by
        dsimp only; rw [hm1]; simp) ⟨c, by dsimp only; rw [k1 p hpk, h1], rfl⟩
    refine ⟨m2, ?_, ?_, ?_, ?_⟩
    · rw [bufferCopy]
      simp only [read_ok h1, Outcome.bind_ok, allocate_ok _ b w (show b.size < b.cap by omega)]
      have hr : Function.update w.cell (b.block, b.size) (some (blank B.unset max₀)) (b.block, b.size) =
          some (blank B.unset max₀) := by simp
      simp only [read_ok hr, Outcome.bind_ok, write_ok hr, Function.update_idem]
      simp only [blank]
      rw [← hm1]
      rw [h4] at g1
      dsimp only at g1
      rw [g1]
      simp only [Outcome.bind_ok]
      congr 4
      omega
    · refine tree_iff.2 ⟨_, es', g2, h2, h3, by simp, by rw [g3, h5], g4, ?_⟩
      rw [g5, span_succ]
    · intro x hx
      rw [g6 x hx]
      exact k1 x fun e => hx (by rw [e])
    · intro k hk
      have := g7 k (by dsimp only; omega) (by omega)
      dsimp only at this
      rw [this, k1 _ (by simp only [ne_eq, Prod.mk.injEq, true_and]; omega)]

end Copy

/-! ### The recorded distances -/

section Distances
variable [LT α] [DecidableLT α]

theorem Cover.maxDistanceList_eq (g : Nat → α) : ∀ (acc : α) (cs : List (CNode L Unit)),
    Cover.maxDistanceList g acc cs = cs.foldl (fun acc c => stdMax acc (Cover.maxDistance g c)) acc
  | acc, [] => by rw [Cover.maxDistanceList]; rfl
  | acc, c :: cs => by rw [Cover.maxDistanceList, Cover.maxDistanceList_eq g _ cs]; rfl

theorem Cover.updateMaxDistanceList_eq (dist : Nat → Nat → α) : ∀ cs : List (CNode L Unit),
    Cover.updateMaxDistanceList dist cs = cs.map (Cover.updateMaxDistance dist)
  | [] => by rw [Cover.updateMaxDistanceList]; rfl
  | c :: cs => by rw [Cover.updateMaxDistanceList, Cover.updateMaxDistanceList_eq dist cs]; rfl

theorem maxDistance_tree (g : Nat → α) (n : Nat) : ∀ (t : CNode L Unit) (p : Ptr) (f : List Ptr) (m : Mem α L),
    Tree m t p f → f.length ≤ n → maxDistance g n p m = .ok (Cover.maxDistance g t) := by
  induction n with
  | zero =>
    intro t p f m h hn
    have := List.length_pos_of_mem (Stored.mem_self h)
    omega
  | succ n ih =>
    intro t p f m h hn
    obtain ⟨c, es, h1, h2, h3, h4, h5, h6, rfl⟩ := tree_iff.1 h
    obtain ⟨i, l, u, cs⟩ := t
    simp only [CNode.index, CNode.level, CNode.children] at h2 h3 h5
    subst h5
    rw [maxDistance, Cover.maxDistance, Cover.maxDistanceList_eq]
    simp only [read_ok h1, Outcome.bind_ok, h2, ← h4]
    simp only [List.length_cons] at hn
    have hlen : (foot es).length ≤ n := by omega
    clear h1 h4 h hn
    generalize g i = acc
    induction es generalizing acc with
    | nil => rfl
    | cons e es ihs =>
      simp only [foot_cons, List.length_append] at hlen
      simp only [List.map_cons, Outcome.foldl, List.foldl_cons]
      rw [ih e.2.1 e.1 e.2.2 m (h6 e (by simp)) (by omega)]
      simp only [Outcome.bind_ok]
      exact ihs h6.tail (by omega) _

/-- What the update of one tree does. -/
def UpdateOk (dist : Nat → Nat → α) (depth n : Nat) : Prop :=
  ∀ (t : CNode L Unit) (p : Ptr) (f : List Ptr) (m : Mem α L), Tree m t p f → f.Nodup → f.length ≤ n →
    f.length ≤ depth → ∃ m', updateMaxDistance dist depth n p m = .ok m' ∧
      Stored (· = ·) m' (Cover.updateMaxDistance dist t) p f ∧ ∀ x ∉ f, m' x = m x

theorem update_loop {dist : Nat → Nat → α} {depth n : Nat} (ih : UpdateOk (L := L) dist depth n) (p : Ptr)
    (vec : List Ptr) (es : List (Entry L Unit)) : ∀ (m : Mem α L), Trees m es → (foot es).Nodup →
    (foot es).length ≤ n → (foot es).length ≤ depth → p ∉ foot es → (∃ c, m p = some c ∧ c.children = vec) →
    ∃ m', forEach id p vec (fun m q => updateMaxDistance dist depth n q m) (es.map (·.1)) m = .ok m' ∧
      All (· = ·) m' (es.map fun e => (e.1, Cover.updateMaxDistance dist e.2.1, e.2.2)) ∧
      ∀ x ∉ foot es, m' x = m x := by
  induction es with
  | nil =>
    intro m _ _ _ _ _ _
    exact ⟨m, rfl, by simp [All], fun _ _ => rfl⟩
  | cons e es ihs =>
    intro m hm hf hn hd hp hv
    obtain ⟨q, t, f⟩ := e
    simp only [foot_cons, List.length_append] at hf hn hd hp ⊢
    rw [List.nodup_append] at hf
    obtain ⟨hf1, hf2, hf3⟩ := hf
    rw [List.mem_append, not_or] at hp
    obtain ⟨m1, e1, e2, e3⟩ := ih t q f m (hm (q, t, f) (by simp)) hf1 (by omega) (by omega)
    have hdis : ∀ x ∈ foot es, x ∉ f := fun x hx hx' => hf3 x hx' x hx rfl
    have hp1 : m1 p = m p := e3 p hp.1
    obtain ⟨m2, g1, g2, g3⟩ := ihs m1 (hm.tail.congr fun x hx => e3 x (hdis x hx)) hf2 (by omega) (by omega) hp.2
      (by rw [hp1]; exact hv)
    obtain ⟨c, hv1, hv2⟩ := hv
    refine ⟨m2, ?_, ?_, ?_⟩
    · rw [List.map_cons, forEach]
      simp only [e1, Outcome.bind_ok, id, read_ok (hp1.trans hv1), hv2, if_true]
      exact g1
    · rw [List.map_cons]
      exact All.cons (Stored.congr e2 fun x hx => g3 x fun hx' => hdis x hx' hx) g2
    · intro x hx
      rw [List.mem_append, not_or] at hx
      rw [g3 x hx.2, e3 x hx.1]

theorem update_tree (dist : Nat → Nat → α) (depth n : Nat) : UpdateOk (L := L) dist depth n := by
  induction n with
  | zero =>
    intro t p f m h _ hn
    have := List.length_pos_of_mem (Stored.mem_self h)
    omega
  | succ n ih =>
    intro t p f m h hf hn hd
    have h0 := h
    obtain ⟨c, es, h1, h2, h3, h4, h5, h6, rfl⟩ := tree_iff.1 h
    rw [List.nodup_cons] at hf
    simp only [List.length_cons] at hn
    obtain ⟨x, hx⟩ : ∃ x, x = Cover.maxDistance (dist t.index) t := ⟨_, rfl⟩
    obtain ⟨m1, hm1⟩ : ∃ m1, m1 = Function.update m p (some { c with maxDistance := x }) := ⟨_, rfl⟩
    have k1 : ∀ y, y ≠ p → m1 y = m y := fun y hy => by rw [hm1, Function.update_of_ne hy]
    obtain ⟨m2, g1, g2, g3⟩ := update_loop ih p c.children es m1
      (h6.congr fun y hy => k1 y fun e => hf.1 (e ▸ hy)) hf.2 (by omega) (by simp at hd; omega) hf.1
      ⟨{ c with maxDistance := x }, by rw [hm1]; simp, rfl⟩
    refine ⟨m2, ?_, ?_, ?_⟩
    · rw [updateMaxDistance]
      simp only [read_ok h1, Outcome.bind_ok, h2, maxDistance_tree (dist t.index) depth t p _ m h0 hd, ← hx,
        write_ok h1]
      rw [h2] at hm1
      rw [← hm1]
      rw [h4] at g1
      exact g1
    · refine stored_iff.2 ⟨{ c with maxDistance := x }, _, by rw [g3 p hf.1, hm1]; simp, ?_, ?_, ?_, ?_, ?_, g2, ?_⟩
      · cases t; rw [Cover.updateMaxDistance]; exact h2
      · cases t; rw [Cover.updateMaxDistance]; exact h3
      · cases t; rw [Cover.updateMaxDistance]; exact hx
      · rw [List.map_map]; exact h4
      · cases t
        rw [Cover.updateMaxDistance, Cover.updateMaxDistanceList_eq]
        simp only [CNode.children] at h5 ⊢
        rw [← h5, List.map_map, List.map_map]
        rfl
      · simp [foot, List.flatMap_map]
    · intro y hy
      rw [List.mem_cons, not_or] at hy
      rw [g3 y hy.2, k1 y hy.1]

end Distances

/-! ### The whole construction -/

theorem Stored.length_le (n : Nat) {same : α → γ → Prop} : ∀ (t : CNode L γ) (p : Ptr) (f : List Ptr) (m : Mem α L),
    Stored same m t p f → f.length ≤ n → f.length = (Spec.points t).length := by
  induction n with
  | zero =>
    intro t p f m h hn
    have := List.length_pos_of_mem (Stored.mem_self h)
    omega
  | succ n ih =>
    intro t p f m h hn
    obtain ⟨c, es, h1, h2, h3, h3', h4, h5, h6, rfl⟩ := stored_iff.1 h
    obtain ⟨i, l, u, cs⟩ := t
    simp only [CNode.children] at h5
    subst h5
    simp only [List.length_cons, Spec.points] at hn ⊢
    congr 1
    have hlen : (foot es).length ≤ n := by omega
    clear h1 h2 h3 h3' h4 h hn
    induction es with
    | nil => rfl
    | cons e es ihs =>
      simp only [foot_cons, List.length_append] at hlen
      simp only [foot_cons, List.map_cons, Spec.pointsList, List.length_append]
      rw [ih e.2.1 e.1 e.2.2 m (h6 e (by simp)) (by omega), ihs (fun e he => h6 e (by simp [he])) (by omega)]

theorem Stored.length_points {same : α → γ → Prop} {t : CNode L γ} {p : Ptr} {f : List Ptr} {m : Mem α L}
    (h : Stored same m t p f) : f.length = (Spec.points t).length := Stored.length_le _ t p f m h le_rfl

section Build
variable [LT α] [LE α] [DecidableLT α] [DecidableLE α] [Add α] {B : Leveling α L} {P : StdPartition}
  {dist : Nat → Nat → α} {max₀ : α}

theorem build_holds {w : World α L} {depth fuel F : Nat} {indices : List Nat} {t : CNode L α} (hF : fuel ≤ F)
    (hdepth : indices.length ≤ depth) (h : Cover.build B (P.part _) dist fuel indices = .ok t) :
    ∃ b w', build M V B P dist max₀ depth F indices w = .ok ((b.block, 0), b, w') ∧ b.size = indices.length ∧
      indices.length ≤ b.cap ∧ Stored (· = ·) w'.cell t (b.block, 0) (span b.block 0 indices.length) ∧
      b.block ∉ w.live ∧ w'.live = b.block :: w.live ∧ (∀ x : Ptr, x.1 ∈ w.live → w'.cell x = w.cell x) := by
  rw [Cover.build] at h
  cases h1 : Cover.insertAll B (P.part _) dist fuel indices with
  | ub => rw [h1] at h; simp at h
  | oof => rw [h1] at h; simp [Outcome.bind] at h
  | ok t1 =>
    rw [h1] at h
    simp only [Outcome.bind_ok] at h
    have hf0 : M.pick w.time w.live ∉ w.live := M.fresh _ _
    obtain ⟨p, b1, w1, f, e1, e0, e2, e3⟩ := insertAll_building (M := M) (V := V) (max₀ := max₀) (w₀ := w)
      (w := (Buffer.new M V indices.length w).2) (b := (Buffer.new M V indices.length w).1) hF hdepth h1 rfl
      (V.le_reserve _) rfl hf0 fun _ _ => rfl
    have hblk : b1.block = M.pick w.time w.live := e2
    have hlen : f.length = indices.length := by rw [e3.len, e0]
    have hsize : Cover.size t1 = indices.length := by
      rw [Cover.size_eq_length, ← Stored.length_points e3.tree, hlen]
    rw [Cover.bufferCopy_ok _ t1 0 (by omega)] at h
    simp only [Outcome.bind_ok, Outcome.ok.injEq] at h
    subst h
    have hf1 : M.pick w1.time w1.live ∉ w1.live := M.fresh _ _
    obtain ⟨b2, hb2⟩ : ∃ b, b = M.pick w1.time w1.live := ⟨_, rfl⟩
    rw [← hb2, e3.live, List.mem_cons, not_or] at hf1
    obtain ⟨m2, g1, g2, g3, g4⟩ := copy_tree (M := M) (V := V) (B := B) (max₀ := max₀) depth t1 p f
      (Buffer.new M V indices.length w1).1 (Buffer.new M V indices.length w1).2 e3.tree (by omega)
      (fun x hx => by
        rw [(e3.inside x hx).1]
        exact fun e => hf1.1 (by rw [hb2, e]; rfl)) (by
        have := V.le_reserve indices.length
        simp only [Buffer.new]; omega)
    simp only [Buffer.new, ← hb2, Nat.zero_add, hlen] at g1 g2 g3
    obtain ⟨m3, k1, k2, k3⟩ := update_tree dist depth depth t1 (b2, 0) _ m2 g2 (by
      rw [span]
      exact List.Nodup.map (fun a b h => by simpa using h) List.nodup_range') (by simpa using hdepth) (by simpa using hdepth)
    have hfw : b1.block ∉ w.live := e3.fresh
    refine ⟨⟨b2, indices.length, V.reserve indices.length⟩, b1.destroy ⟨m3, b2 :: w1.live, w1.time + 1⟩, ?_, rfl,
      V.le_reserve _, ?_, hf1.2, ?_, ?_⟩
    · rw [build]
      simp only [e1, Outcome.bind_ok]
      simp only [Buffer.new, ← hb2]
      rw [g1]
      simp only [Outcome.bind_ok, k1]
    · refine Stored.congr k2 fun x hx => ?_
      simp only [Buffer.destroy]
      rw [if_neg]
      rw [(mem_span.1 hx).1]
      exact hf1.1
    · simp only [Buffer.destroy, e3.live]
      rw [List.filter_cons_of_pos (by simpa using hf1.1), List.filter_cons_of_neg (by simp)]
      congr 1
      exact List.filter_eq_self.2 fun a ha => by
        simp only [ne_eq, decide_not, Bool.not_eq_eq_eq_not, Bool.not_true, decide_eq_false_iff_not]
        exact fun e => hfw (e ▸ ha)
    · intro x hx
      have n1 : x.1 ≠ b1.block := fun e => hfw (e ▸ hx)
      have n2 : x.1 ≠ b2 := fun e => hf1.2 (e ▸ hx)
      simp only [Buffer.destroy, if_neg n1]
      rw [k3 x fun h => n2 (mem_span.1 h).1, g3 x n2, e3.same x n1]

end Build

/-! ### The search -/

section Search
variable {σ : Type} [LinearOrder α] [Sub α]

theorem searchNearest_eq (S : StdSorting) (V : Visitor α σ) (dq : Nat → α) (m : Mem α L) (fuel : Nat) :
    ∀ (t : CNode L α) (p : Ptr) (f : List Ptr) (s : σ), Stored (· = ·) m t p f →
      searchNearest S V dq m fuel p s = Cover.searchNearest (S.sorter _) V dq fuel t s := by
  induction fuel with
  | zero => intro t p f s _; rfl
  | succ fuel ih =>
    intro t p f s h
    obtain ⟨c, es, h1, h2, h3, h3', h4, h5, h6, rfl⟩ := stored_iff.1 h
    rw [searchNearest, Cover.searchNearest]
    simp only [read_ok h1, Outcome.bind_ok, h2]
    rw [← h4, readIndices_map h6]
    simp only [Outcome.bind_ok, ← h5, List.map_map]
    obtain ⟨es', he⟩ : ∃ es', es' = (S.sorter (Entry L α)).sort
      (fun a b => decide (dq a.2.1.index < dq b.2.1.index)) es := ⟨_, rfl⟩
    have hmem : ∀ e ∈ es', Stored (· = ·) m e.2.1 e.1 e.2.2 := fun e hx => by
      rw [he] at hx
      refine h6 e ((StdSort.sort_perm _ _ _ ?_).mem_iff.1 hx)
      refine ⟨fun _ => by simp, fun a b c h h' => ?_, fun a b c h1 h2 h3 h4 => ?_⟩
      · simp only [decide_eq_true_eq] at *
        exact h.trans h'
      · simp only [decide_eq_false_iff_not, not_lt] at *
        exact ⟨h3.trans h1, h2.trans h4⟩
    have s1 := S.sort_map (fun e : Entry L α => (e.1, dq e.2.1.index)) (fun a b => decide (a.2 < b.2)) es
    have s2 := S.sort_map (fun e : Entry L α => (e.2.1, dq e.2.1.index)) (fun a b => decide (a.2 < b.2)) es
    dsimp only at s1 s2
    rw [← he] at s1 s2
    rw [show ((fun c : Ptr × Nat => (c.1, dq c.2)) ∘ fun e : Entry L α => (e.1, e.2.1.index)) =
      fun e : Entry L α => (e.1, dq e.2.1.index) from rfl, s1,
      show ((fun c : CNode L α => (c, dq c.index)) ∘ fun e : Entry L α => e.2.1) =
      fun e : Entry L α => (e.2.1, dq e.2.1.index) from rfl, s2]
    generalize (if V.max s > dq t.index then V.visit s t.index (dq t.index) else s) = s'
    clear s1 s2 he h1 h4 h5 h6 h
    induction es' generalizing s' with
    | nil => rfl
    | cons e es' ihs =>
      simp only [List.map_cons, Outcome.foldl]
      have he := hmem e (by simp)
      obtain ⟨c', _, y1, y2, _, y3, _⟩ := stored_iff.1 he
      simp only [read_ok y1, Outcome.bind_ok, y2, y3]
      rw [ih e.2.1 e.1 e.2.2 s' he]
      congr 1
      funext s''
      exact ihs (fun e hx => hmem e (List.mem_cons_of_mem _ hx)) s''

end Search

end Pico.CoverMem
