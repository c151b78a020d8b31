import Verif.Proof.CoverMem

/-!
# The cover tree in memory: insertions
-/

namespace Pico.CoverMem

open Spec

variable {α L : Type}

/-- A single node is a tree, with the level it happens to have. -/
theorem Loose.tree {m : Mem α L} {q : Ptr} {n : CNode L Unit} (h : Loose m q n) :
    ∃ l, Tree m (n.setLevel l) q [q] := by
  obtain ⟨c, h1, h2, h3, h4⟩ := h
  exact ⟨c.level, tree_iff.2 ⟨c, [], h1, by simpa using h2, by simp, by simp [h3], by simp [h4], by simp [All],
    by simp⟩⟩

theorem Cover.setLevel_setLevel (n : CNode L Unit) (l l' : L) : (n.setLevel l).setLevel l' = n.setLevel l' := by
  cases n; rfl

theorem Tree.setLevel {m : Mem α L} {t : CNode L Unit} {p : Ptr} {f : List Ptr} (h : Tree m t p f) (hf : f.Nodup)
    (l : L) : ∃ c, m p = some c ∧
      Tree (Function.update m p (some { c with level := l })) (t.setLevel l) p f := by
  obtain ⟨c, es, h1, h2, h3, h4, h5, h6, rfl⟩ := tree_iff.1 h
  rw [List.nodup_cons] at hf
  refine ⟨c, h1, tree_iff.2 ⟨{ c with level := l }, es, by simp, by simpa using h2, by simp, h4, by simpa using h5,
    h6.congr fun x hx => Function.update_of_ne (fun e => hf.1 (by rw [← e]; exact hx)) _ _, rfl⟩⟩

/-- `push_child`: the child becomes the last one. -/
theorem pushChild_tree (B : Leveling α L) {m : Mem α L} {t n : CNode L Unit} {p q : Ptr} {f g : List Ptr}
    (ht : Tree m t p f) (hn : Tree m n q g) (hd : (f ++ g).Nodup) :
    ∃ m', pushChild B p q m = .ok m' ∧ Tree m' (Cover.pushChild B t n) p (f ++ g) ∧ ∀ x ∉ f ++ g, m' x = m x := by
  rw [List.nodup_append] at hd
  obtain ⟨hf, hg, hfg⟩ := hd
  obtain ⟨a, es, h1, h2, h3, h4, h5, h6, rfl⟩ := tree_iff.1 ht
  obtain ⟨c, hc, hn1⟩ := Tree.setLevel hn hg (B.down t.level)
  have hpq : p ≠ q := hfg p (by simp) q (Stored.mem_self hn)
  rw [List.nodup_cons] at hf
  obtain ⟨m1, hm1⟩ : ∃ m1, m1 = Function.update m q (some { c with level := B.down t.level }) := ⟨_, rfl⟩
  rw [← hm1] at hn1
  have h1p : m1 p = some a := by rw [hm1, Function.update_of_ne hpq, h1]
  obtain ⟨m2, hm2⟩ : ∃ m2, m2 = Function.update m1 p (some { a with children := a.children ++ [q] }) := ⟨_, rfl⟩
  have k1 : ∀ x, x ≠ q → m1 x = m x := fun x hx => by rw [hm1, Function.update_of_ne hx]
  have k2 : ∀ x, x ≠ p → m2 x = m1 x := fun x hx => by rw [hm2, Function.update_of_ne hx]
  refine ⟨m2, ?_, ?_, ?_⟩
  · rw [pushChild]
    simp only [read_ok h1, read_ok hc, Outcome.bind_ok, write_ok hc, h3, ← hm1, read_ok h1p, write_ok h1p]
    rw [hm2, h3]
  · refine tree_iff.2 ⟨{ a with children := a.children ++ [q] }, es ++ [(q, n.setLevel (B.down t.level), g)],
      by rw [hm2]; simp, ?_, ?_, ?_, ?_, ?_, ?_⟩
    · simpa using h2
    · simpa using h3
    · simp [h4]
    · simp [h5, Cover.pushChild]
    · intro e he
      rcases List.mem_append.1 he with he | he
      · refine Stored.congr (h6 e he) fun x hx => ?_
        have hx' := mem_foot he hx
        have hxp : x ≠ p := fun e => hf.1 (by rw [← e]; exact hx')
        rw [k2 x hxp, k1 x fun e => hfg x (List.mem_cons_of_mem _ hx') q (Stored.mem_self hn) e]
      · rw [List.mem_singleton] at he
        subst he
        exact Stored.congr hn1 fun x hx => k2 x fun e => hfg p (by simp) x hx e.symm
    · simp
  · intro x hx
    rw [List.mem_append, not_or] at hx
    rw [k2 x fun e => hx.1 (by simp [e]), k1 x fun e => hx.2 (by rw [e]; exact Stored.mem_self hn)]

theorem Cover.pushChild_setLevel (B : Leveling α L) (t n : CNode L Unit) (l : L) :
    Cover.pushChild B t (n.setLevel l) = Cover.pushChild B t n := by
  rw [Cover.pushChild, Cover.pushChild, setLevel_setLevel]

/-- `node_to_parent`: the single node becomes the root. -/
theorem nodeToParent_tree (B : Leveling α L) {m : Mem α L} {t n : CNode L Unit} {p q : Ptr} {f : List Ptr}
    (hn : Loose m q n) (ht : Tree m t p f) (hd : (q :: f).Nodup) :
    ∃ m', nodeToParent B q p m = .ok m' ∧ Tree m' (Cover.nodeToParent B n t) q (q :: f) ∧
      ∀ x ∉ q :: f, m' x = m x := by
  obtain ⟨c, h1, h2, h3, h4⟩ := hn
  obtain ⟨a, es, a1, a2, a3, a4, a5, a6, hfe⟩ := tree_iff.1 ht
  rw [List.nodup_cons] at hd
  refine ⟨Function.update m q (some { c with level := B.up a.level, children := c.children ++ [p] }), ?_, ?_, ?_⟩
  · rw [nodeToParent]
    simp only [read_ok h1, Outcome.bind_ok, if_pos h3, read_ok a1, write_ok h1]
  · refine tree_iff.2 ⟨{ c with level := B.up a.level, children := c.children ++ [p] }, [(p, t, f)], by simp, ?_, ?_, ?_,
      ?_, ?_, ?_⟩
    · simpa [Cover.nodeToParent] using h2
    · simp [Cover.nodeToParent, a3]
    · simp [h3]
    · simp [Cover.nodeToParent, h4]
    · intro e he
      rw [List.mem_singleton] at he
      subst he
      exact Stored.congr ht fun x hx => Function.update_of_ne (fun e => hd.1 (by rw [← e]; exact hx)) _ _
    · simp
  · intro x hx
    rw [List.mem_cons, not_or] at hx
    exact Function.update_of_ne hx.1 _ _

/-! ### `remove_leaf` -/

theorem Cover.removeLast_append (xs : List (CNode L Unit)) (c : CNode L Unit) :
    Cover.removeLast (xs ++ [c]) = if c.children = [] then .ok (c, xs) else
      (Cover.removeLeaf c).bind fun r => .ok (r.1, xs ++ [r.2]) := by
  induction xs with
  | nil =>
    rw [List.nil_append, Cover.removeLast]
    cases h : c.children with
    | nil => simp
    | cons a as => simp
  | cons x xs ih =>
    obtain ⟨y, ys, hy⟩ : ∃ y ys, xs ++ [c] = y :: ys := by
      cases xs with
      | nil => exact ⟨c, [], rfl⟩
      | cons a as => exact ⟨a, as ++ [c], rfl⟩
    rw [List.cons_append, hy, Cover.removeLast, ← hy, ih]
    by_cases h : c.children = []
    · simp [h]
    · simp only [h, if_false]
      cases Cover.removeLeaf c with
      | ok r => rfl
      | ub => rfl
      | oof => rfl

theorem removeLeaf_tree (n : Nat) : ∀ (t : CNode L Unit) (p : Ptr) (f : List Ptr) (m : Mem α L)
    (r : CNode L Unit × CNode L Unit), Cover.removeLeaf t = .ok r → Tree m t p f → f.Nodup → f.length ≤ n →
    ∃ q m' f', removeLeaf n p m = .ok (q, m') ∧ Loose m' q r.1 ∧ Tree m' r.2 p f' ∧ (q :: f').Perm f ∧
      ∀ x ∉ f, m' x = m x := by
  induction n with
  | zero =>
    intro t p f m r _ h _ hn
    have := List.length_pos_of_mem (Stored.mem_self h)
    omega
  | succ n ih =>
    intro t p f m r hr ht hf hn
    obtain ⟨c, es, h1, h2, h3, h4, h5, h6, rfl⟩ := tree_iff.1 ht
    rw [List.nodup_cons] at hf
    obtain ⟨hp, hf⟩ := hf
    obtain ⟨i, l, g, cs⟩ := t
    simp only [CNode.index, CNode.level, CNode.children] at h2 h3 h5
    subst h5
    rw [Cover.removeLeaf] at hr
    rcases List.eq_nil_or_concat es with rfl | ⟨es, e, rfl⟩
    · simp [Cover.removeLast] at hr
    · obtain ⟨q, s, fs⟩ := e
      rw [List.concat_eq_append] at *
      simp only [foot_append, foot_cons, foot_nil, List.append_nil] at hp hf hn ⊢
      simp only [List.map_append, List.map_cons, List.map_nil] at hr h4
      rw [Cover.removeLast_append] at hr
      have hq : Tree m s q fs := h6 (q, s, fs) (by simp)
      have hes : Trees m es := fun e he => h6 e (by simp [he])
      have hq0 := hq
      obtain ⟨cq, esq, q1, q2, q3, q4, q5, q6, hfs⟩ := tree_iff.1 hq
      rw [List.nodup_append] at hf
      obtain ⟨hf1, hf2, hf3⟩ := hf
      rw [List.mem_append, not_or] at hp
      have hlast : c.children.getLast? = some q := by rw [← h4]; simp
      by_cases hs : s.children = []
      · simp only [hs, if_true, Outcome.bind_ok, Outcome.ok.injEq] at hr
        subst hr
        have hesq : esq = [] := by rw [hs] at q5; simpa using q5
        subst hesq
        have hcq : cq.children = [] := by rw [← q4]; rfl
        simp only [foot_nil] at hfs
        subst hfs
        have hqp : q ≠ p := fun e => hp.2 (by simp [e])
        refine ⟨q, Function.update m p (some { c with children := c.children.dropLast }), p :: foot es, ?_, ?_, ?_, ?_, ?_⟩
        · rw [removeLeaf]
          simp only [read_ok h1, Outcome.bind_ok, hlast, read_ok q1, if_pos hcq, write_ok h1]
        · exact ⟨cq, by rw [Function.update_of_ne hqp, q1], q2, hcq, hs⟩
        · refine tree_iff.2 ⟨{ c with children := c.children.dropLast }, es, by simp, h2, h3, ?_, rfl, ?_, rfl⟩
          · simp [← h4]
          · exact hes.congr fun x hx => Function.update_of_ne (fun e => hp.1 (by rw [← e]; exact hx)) _ _
        · rw [List.perm_iff_count]
          intro a
          simp only [List.count_append, List.count_cons, List.count_nil]
          omega
        · intro x hx
          rw [List.mem_cons, not_or] at hx
          exact Function.update_of_ne hx.1 _ _
      · simp only [hs, if_false] at hr
        have hcq : cq.children ≠ [] := by
          rw [← q4]
          intro e
          have : esq = [] := by simpa using e
          subst this
          exact hs (by rw [← q5]; rfl)
        cases hl : Cover.removeLeaf s with
        | ub => rw [hl] at hr; simp at hr
        | oof => rw [hl] at hr; simp [Outcome.bind] at hr
        | ok r' =>
          rw [hl] at hr
          simp only [Outcome.bind_ok, Outcome.ok.injEq] at hr
          subst hr
          obtain ⟨q', m', f', e1, e2, e3, e4, e5⟩ := ih s q fs m r' hl hq0 hf2 (by
            rw [List.length_cons, List.length_append] at hn; omega)
          refine ⟨q', m', p :: (foot es ++ f'), ?_, e2, ?_, ?_, ?_⟩
          · rw [removeLeaf]
            simp only [read_ok h1, Outcome.bind_ok, hlast, read_ok q1, if_neg hcq, e1]
          · refine tree_iff.2 ⟨c, es ++ [(q, r'.2, f')], by rw [e5 p hp.2, h1], h2, h3, by simp [h4], by simp [CNode.children], ?_,
              by simp⟩
            intro e he
            rcases List.mem_append.1 he with he | he
            · exact Stored.congr (hes e he) fun x hx => e5 x fun hx' => hf3 x (mem_foot he hx) x hx' rfl
            · rw [List.mem_singleton] at he
              subst he
              exact e3
          · rw [List.perm_iff_count]
            intro a
            have := e4.count_eq a
            simp only [List.count_append, List.count_cons] at this ⊢
            omega
          · intro x hx
            exact e5 x fun h => hx (by simp [h])

/-! ### Insertion of several nodes -/

/-- `insP` does in memory what `insF` does to the values. -/
def InsOk (depth : Nat) (insF : CNode L Unit → CNode L Unit → Outcome (CNode L Unit))
    (insP : Ptr → Ptr → Mem α L → Outcome (Mem α L)) : Prop :=
  ∀ (t n t' : CNode L Unit) (p q : Ptr) (f : List Ptr) (m : Mem α L), insF t n = .ok t' → Tree m t p f →
    Loose m q n → (q :: f).Nodup → (q :: f).length ≤ depth →
    ∃ m' f', insP p q m = .ok m' ∧ Tree m' t' p f' ∧ f'.Perm (q :: f) ∧ ∀ x ∉ q :: f, m' x = m x

theorem InsOk.foldl {depth : Nat} {insF : CNode L Unit → CNode L Unit → Outcome (CNode L Unit)}
    {insP : Ptr → Ptr → Mem α L → Outcome (Mem α L)} (h : InsOk depth insF insP) {p : Ptr} {qs : List Ptr}
    {ns : List (CNode L Unit)} {t t' : CNode L Unit} {f : List Ptr} {m : Mem α L}
    (hF : Outcome.foldl insF t ns = .ok t') (ht : Tree m t p f) (hl : Looses m qs ns) (hd : (qs ++ f).Nodup)
    (hlen : (qs ++ f).length ≤ depth) :
    ∃ m' f', Outcome.foldl (fun m q => insP p q m) m qs = .ok m' ∧ Tree m' t' p f' ∧ f'.Perm (qs ++ f) ∧
      ∀ x ∉ qs ++ f, m' x = m x := by
  induction qs generalizing ns t f m with
  | nil =>
    cases hl
    simp only [Outcome.foldl, Outcome.ok.injEq] at hF
    subst hF
    exact ⟨m, f, rfl, ht, .refl _, fun x _ => rfl⟩
  | cons q qs ih =>
    cases hl with
    | @cons _ n _ ns hq hqs =>
    rw [Outcome.foldl] at hF
    cases h1 : insF t n with
    | ub => rw [h1] at hF; simp at hF
    | oof => rw [h1] at hF; simp [Outcome.bind] at hF
    | ok t1 =>
      rw [h1] at hF
      simp only [Outcome.bind_ok] at hF
      rw [List.cons_append, List.nodup_cons, List.nodup_append] at hd
      obtain ⟨hq1, hqs1, hf1, hdis⟩ := hd
      rw [List.mem_append, not_or] at hq1
      have hqf : (q :: f).Nodup := List.nodup_cons.2 ⟨hq1.2, hf1⟩
      obtain ⟨m1, f1, e1, e2, e3, e4⟩ := h t n t1 p q f m h1 ht hq hqf (by simp at hlen ⊢; omega)
      have hqs1' : ∀ x ∈ qs, x ∉ q :: f := by
        intro x hx hx'
        rcases List.mem_cons.1 hx' with rfl | hx'
        · exact hq1.1 hx
        · exact hdis x hx x hx' rfl
      have hnd : (qs ++ f1).Nodup := by
        rw [List.nodup_append]
        refine ⟨hqs1, e3.nodup_iff.2 hqf, fun x hx y hy e => ?_⟩
        subst e
        exact hqs1' x hx (e3.mem_iff.1 hy)
      have hl1 : Looses m1 qs ns := Looses.congr hqs fun x hx => e4 x (hqs1' x hx)
      have hperm : (qs ++ f1).Perm (q :: qs ++ f) := by
        rw [List.perm_iff_count]
        intro a
        have := e3.count_eq a
        simp only [List.count_append, List.count_cons] at this ⊢
        omega
      obtain ⟨m2, f2, g1, g2, g3, g4⟩ := ih hF e2 hl1 hnd (by rw [hperm.length_eq]; exact hlen)
      refine ⟨m2, f2, ?_, g2, g3.trans hperm, fun x hx => ?_⟩
      · rw [Outcome.foldl, e1, Outcome.bind_ok, g1]
      · rw [g4 x fun h => hx (hperm.mem_iff.1 h), e4 x fun h => hx (by
          rcases List.mem_cons.1 h with rfl | h <;> simp [*])]

/-! ### `rebalance` -/

section Rebalance
variable [LT α] [LE α] [DecidableLT α] [DecidableLE α] {B : Leveling α L} {P : StdPartition}
  {dist : Nat → Nat → α} {depth : Nat}

theorem rebalance_loop {insF : CNode L Unit → CNode L Unit → Outcome (CNode L Unit)}
    {insP : Ptr → Ptr → Mem α L → Outcome (Mem α L)} (h : InsOk depth insF insP) {fuel F : Nat} (hF : fuel ≤ F)
    (x : Nat) (d : α) (p : Ptr) (vec : List Ptr) (es : List (Entry L Unit)) (m : Mem α L)
    (mv : List (CNode L Unit)) (r : List (CNode L Unit) × List (CNode L Unit))
    (hr : Cover.rebalanceChildren (P.part _) dist insF fuel x d (es.map (·.2.1)) mv = .ok r)
    (hm : Trees m es) (hf : (foot es).Nodup) (hp : p ∉ foot es) (hn : (foot es).length ≤ depth)
    (hv : ∃ c, m p = some c ∧ c.children = vec) :
    ∃ m' es' dm Dm, r.2 = mv ++ Dm ∧ r.1 = es'.map (·.2.1) ∧ es'.map (·.1) = es.map (·.1) ∧
      (∀ am, forEach Prod.snd p vec (rebalanceChild P dist insP depth F x d) (es.map (·.1)) (am, m) =
        .ok (am ++ dm, m')) ∧
      Trees m' es' ∧ Looses m' dm Dm ∧ (foot es' ++ dm).Perm (foot es) ∧ ∀ y ∉ foot es, m' y = m y := by
  induction es generalizing m mv r with
  | nil =>
    simp only [List.map_nil, Cover.rebalanceChildren, Outcome.ok.injEq] at hr
    subst hr
    exact ⟨m, [], [], [], by simp, rfl, rfl, fun am => by simp [forEach], hm, .nil, by simp, fun x _ => rfl⟩
  | cons e es ihs =>
    obtain ⟨q, t, f⟩ := e
    simp only [foot_cons] at hf hp hn ⊢
    rw [List.nodup_append] at hf
    obtain ⟨hf1, hf2, hf3⟩ := hf
    rw [List.length_append] at hn
    rw [List.map_cons, Cover.rebalanceChildren] at hr
    have ht : Tree m t q f := hm (q, t, f) (by simp)
    obtain ⟨cq, -, hq1, hq2, -⟩ := tree_iff.1 ht
    have hd : ∀ y ∈ foot es, y ∉ f := fun y hy hy' => hf3 y hy' y hy rfl
    have hpf : p ∉ f := fun h => hp (List.mem_append_left _ h)
    -- one child
    have one : ∀ (m1 : Mem α L) (t1 : CNode L Unit) (f1 dm : List Ptr) (Dm : List (CNode L Unit))
        (q' : List (CNode L Unit) × List (CNode L Unit)),
        (∀ am, rebalanceChild P dist insP depth F x d (am, m) q = .ok (am ++ dm, m1)) →
        Tree m1 t1 q f1 → Looses m1 dm Dm → (f1 ++ dm).Perm f → (∀ y ∉ f, m1 y = m y) →
        Cover.rebalanceChildren (P.part _) dist insF fuel x d (es.map (·.2.1)) (mv ++ Dm) = .ok q' →
        ∃ m' es' dm Dm, q'.2 = mv ++ Dm ∧ t1 :: q'.1 = es'.map (·.2.1) ∧ es'.map (·.1) = q :: es.map (·.1) ∧
          (∀ am, forEach Prod.snd p vec (rebalanceChild P dist insP depth F x d) (q :: es.map (·.1)) (am, m) =
            .ok (am ++ dm, m')) ∧
          Trees m' es' ∧ Looses m' dm Dm ∧ (foot es' ++ dm).Perm (f ++ foot es) ∧
          ∀ y ∉ f ++ foot es, m' y = m y := by
      intro m1 t1 f1 dm Dm q' a1 a2 a3 a4 a5 a6
      have hp1 : m1 p = m p := a5 p hpf
      obtain ⟨m2, es', dm', Dm', b1, b2, b3, b4, b5, b6, b7, b8⟩ := ihs m1 (mv ++ Dm) q' a6
        (hm.tail.congr fun y hy => a5 y (hd y hy)) hf2 (fun h => hp (List.mem_append_right _ h)) (by omega)
        (by rw [hp1]; exact hv)
      obtain ⟨c, hc1, hc2⟩ := hv
      have keep2 : ∀ y ∈ f1 ++ dm, m2 y = m1 y := fun y hy => b8 y fun hy' => hd y hy' (a4.mem_iff.1 hy)
      refine ⟨m2, (q, t1, f1) :: es', dm ++ dm', Dm ++ Dm', ?_, ?_, ?_, ?_, ?_, ?_, ?_, ?_⟩
      · rw [b1]; simp
      · simp [b2]
      · simp [b3]
      · intro am
        rw [forEach, a1]
        simp only [Outcome.bind_ok, read_ok (hp1.trans hc1), hc2, if_true]
        rw [b4]
        simp
      · exact All.cons (Stored.congr a2 fun y hy => keep2 y (List.mem_append_left _ hy)) b5
      · exact (a3.congr fun y hy => keep2 y (List.mem_append_right _ hy)).append b6
      · refine List.Perm.trans ?_ (a4.append b7)
        rw [List.perm_iff_count]
        intro a
        simp only [foot_cons, List.count_append]
        omega
      · intro y hy
        rw [b8 y fun h => hy (List.mem_append_right _ h), a5 y fun h => hy (List.mem_append_left _ h)]
    by_cases hdx : dist x t.index < d
    · simp only [if_pos hdx] at hr
      cases he : Cover.extract (P.part _) (fun p => decide (dist t.index p < dist x p))
          (fun p => decide (dist t.index p > dist x p)) fuel t (mv, []) with
      | ub => rw [he] at hr; simp at hr
      | oof => rw [he] at hr; simp [Outcome.bind] at hr
      | ok s =>
        rw [he] at hr
        simp only [Outcome.bind_ok] at hr
        cases hi : Outcome.foldl insF s.1 s.2.2.reverse with
        | ub => rw [hi] at hr; simp at hr
        | oof => rw [hi] at hr; simp [Outcome.bind] at hr
        | ok t1 =>
          rw [hi] at hr
          simp only [Outcome.bind_ok] at hr
          cases hc : Cover.rebalanceChildren (P.part _) dist insF fuel x d (es.map (·.2.1)) s.2.1 with
          | ub => rw [hc] at hr; simp at hr
          | oof => rw [hc] at hr; simp [Outcome.bind] at hr
          | ok q' =>
            rw [hc] at hr
            simp only [Outcome.bind_ok, Outcome.ok.injEq] at hr
            subst hr
            obtain ⟨m1, f', dm, ds, Dm, Ds, e1, r1, t1', l1, l2, pm, fr⟩ :=
              extract_tree P depth fuel F hF t q f m (mv, []) s he ht hf1 (by omega)
            have hnd := pm.nodup_iff.2 hf1
            rw [List.nodup_append, List.nodup_append] at hnd
            obtain ⟨n1, ⟨n2, n3, n4⟩, n5⟩ := hnd
            have es2 : s.2.2 = Ds := by rw [e1]; simp
            have es1 : s.2.1 = mv ++ Dm := by rw [e1]
            rw [es2] at hi
            rw [es1] at hc
            have plen := pm.length_eq
            simp only [List.length_append] at plen
            obtain ⟨m2, f2, g1, g2, g3, g4⟩ := h.foldl hi t1' l2.reverse (by
              rw [List.nodup_append]
              refine ⟨List.nodup_reverse.2 n3, n1, fun y hy z hz e => ?_⟩
              subst e
              exact n5 y hz y (List.mem_append_right _ (List.mem_reverse.1 hy)) rfl) (by
              simp only [List.length_append, List.length_reverse]; omega)
            refine one m2 t1 f2 dm Dm q' ?_ g2 ?_ ?_ ?_ hc
            · intro am
              rw [rebalanceChild]
              simp only [read_ok hq1, Outcome.bind_ok, hq2, if_pos hdx]
              rw [r1]
              simp only [Outcome.bind_ok, List.nil_append]
              rw [g1]
              rfl
            · refine l1.congr fun y hy => g4 y fun hy' => ?_
              rcases List.mem_append.1 hy' with hy' | hy'
              · exact n4 y hy y (List.mem_reverse.1 hy') rfl
              · exact n5 y hy' y (List.mem_append_left _ hy) rfl
            · refine List.Perm.trans ?_ pm
              rw [List.perm_iff_count]
              intro a
              have := g3.count_eq a
              simp only [List.count_append, List.count_reverse] at this ⊢
              omega
            · intro y hy
              rw [g4 y fun hy' => hy (pm.mem_iff.1 (by
                rcases List.mem_append.1 hy' with h | h
                · simp [List.mem_reverse.1 h]
                · simp [h])), fr y hy]
    · simp only [if_neg hdx] at hr
      cases hc : Cover.rebalanceChildren (P.part _) dist insF fuel x d (es.map (·.2.1)) mv with
      | ub => rw [hc] at hr; simp at hr
      | oof => rw [hc] at hr; simp [Outcome.bind] at hr
      | ok q' =>
        rw [hc] at hr
        simp only [Outcome.bind_ok, Outcome.ok.injEq] at hr
        subst hr
        refine one m t f [] [] q' ?_ ht .nil (by simp) (fun _ _ => rfl) (by simpa using hc)
        intro am
        rw [rebalanceChild]
        simp only [read_ok hq1, Outcome.bind_ok, hq2, if_neg hdx, List.append_nil]

/-- `rebalance` in memory. -/
theorem rebalance_tree {insF : CNode L Unit → CNode L Unit → Outcome (CNode L Unit)}
    {insP : Ptr → Ptr → Mem α L → Outcome (Mem α L)} (h : InsOk depth insF insP) {fuel F : Nat} (hF : fuel ≤ F) :
    InsOk (α := α) depth (Cover.rebalance B (P.part _) dist insF fuel)
      (fun p q m => (read m q).bind fun c => rebalance B P dist insP depth F c.index p q m) := by
  intro t n t' p q f m hr ht hq hd hlen
  obtain ⟨c, es, h1, h2, h3, h4, h5, h6, rfl⟩ := tree_iff.1 ht
  obtain ⟨cq, hq1, hq2, hq3, hq4⟩ := hq
  rw [List.nodup_cons, List.nodup_cons] at hd
  obtain ⟨hqf, hp, hf⟩ := hd
  rw [List.mem_cons, not_or] at hqf
  simp only [List.length_cons] at hlen
  rw [Cover.rebalance, ← h5] at hr
  cases hc : Cover.rebalanceChildren (P.part _) dist insF fuel n.index (B.twice (B.child t.level)) (es.map (·.2.1)) [] with
  | ub => rw [hc] at hr; simp at hr
  | oof => rw [hc] at hr; simp [Outcome.bind] at hr
  | ok r =>
    rw [hc] at hr
    simp only [Outcome.bind_ok] at hr
    cases hi : Outcome.foldl insF (n.setLevel (B.down t.level)) r.2.reverse with
    | ub => rw [hi] at hr; simp at hr
    | oof => rw [hi] at hr; simp [Outcome.bind] at hr
    | ok n1 =>
      rw [hi] at hr
      simp only [Outcome.bind_ok, Outcome.ok.injEq] at hr
      subst hr
      obtain ⟨m1, es', dm, Dm, e1, e2, e3, r1, t1, l1, pm, fr⟩ :=
        rebalance_loop h hF n.index (B.twice (B.child t.level)) p c.children es m [] r hc h6 hf hp (by omega) ⟨c, h1, rfl⟩
      have hm1q : m1 q = some cq := by rw [fr q hqf.2, hq1]
      have hm1p : m1 p = some c := by rw [fr p hp, h1]
      obtain ⟨m2, hm2⟩ : ∃ m2, m2 = Function.update m1 q (some { cq with level := B.down t.level }) := ⟨_, rfl⟩
      have k2 : ∀ x, x ≠ q → m2 x = m1 x := fun x hx => by rw [hm2, Function.update_of_ne hx]
      have hsub : ∀ x ∈ foot es' ++ dm, x ∈ foot es := fun x hx => pm.mem_iff.1 hx
      have hnq : ∀ x ∈ foot es' ++ dm, x ≠ q := fun x hx e => hqf.2 (e ▸ hsub x hx)
      have hnp : ∀ x ∈ foot es' ++ dm, x ≠ p := fun x hx e => hp (e ▸ hsub x hx)
      have htq : Tree m2 (n.setLevel (B.down t.level)) q [q] :=
        tree_iff.2 ⟨{ cq with level := B.down t.level }, [], by rw [hm2]; simp, by simpa using hq2, by simp,
          by simp [hq3], by simp [hq4], by simp [All], by simp⟩
      have hnd := pm.nodup_iff.2 hf
      rw [List.nodup_append] at hnd
      obtain ⟨n1', n2', n3'⟩ := hnd
      have plen := pm.length_eq
      simp only [List.length_append] at plen
      have e1' : r.2 = Dm := by rw [e1]; simp
      rw [e1'] at hi
      obtain ⟨m3, f3, g1, g2, g3, g4⟩ := h.foldl hi htq
        ((l1.congr fun x hx => k2 x (hnq x (List.mem_append_right _ hx))).reverse) (by
          rw [List.nodup_append]
          refine ⟨List.nodup_reverse.2 n2', by simp, fun y hy z hz e => ?_⟩
          rw [List.mem_singleton] at hz
          exact hnq y (List.mem_append_right _ (List.mem_reverse.1 hy)) (e.trans hz)) (by
          simp only [List.length_append, List.length_reverse, List.length_singleton]; omega)
      have hf3 : ∀ x, x ∈ f3 ↔ x ∈ dm ∨ x = q := fun x => by
        rw [g3.mem_iff]; simp
      have t1b : Trees m3 es' := t1.congr fun x hx => by
        rw [g4 x, k2 x (hnq x (List.mem_append_left _ hx))]
        rw [← g3.mem_iff, hf3]
        rintro (h | h)
        · exact n3' x hx x h rfl
        · exact hnq x (List.mem_append_left _ hx) h
      have hm3p : m3 p = some c := by
        rw [g4 p, k2 p (Ne.symm hqf.1), hm1p]
        rw [← g3.mem_iff, hf3]
        rintro (h | h)
        · exact hnp p (List.mem_append_right _ h) rfl
        · exact hqf.1 h.symm
      have htp : Tree m3 (t.setChildren r.1) p (p :: foot es') :=
        tree_iff.2 ⟨c, es', hm3p, by simpa using h2, by simpa using h3, by rw [e3, h4], by simp [e2], t1b, rfl⟩
      have hperm : (p :: foot es' ++ f3).Perm (q :: p :: foot es) := by
        rw [List.perm_iff_count]
        intro a
        have := g3.count_eq a
        have := pm.count_eq a
        simp only [List.count_append, List.count_cons, List.count_reverse, List.count_nil] at *
        omega
      have hnd2 : (p :: foot es' ++ f3).Nodup := hperm.nodup_iff.2 (by
        rw [List.nodup_cons, List.nodup_cons, List.mem_cons, not_or]
        exact ⟨hqf, hp, hf⟩)
      obtain ⟨m4, i1, i2, i3⟩ := pushChild_tree B htp g2 hnd2
      refine ⟨m4, _, ?_, i2, hperm, ?_⟩
      · simp only [read_ok hq1, Outcome.bind_ok, rebalance, read_ok h1, hq2, h3]
        rw [h4] at r1
        rw [r1]
        simp only [Outcome.bind_ok, read_ok hm1p, read_ok hm1q, write_ok hm1q, h3, List.nil_append]
        rw [← hm2, g1]
        exact i1
      · intro x hx
        rw [i3 x fun h => hx (hperm.mem_iff.1 h)]
        simp only [List.mem_cons, not_or] at hx
        have hxd : x ∉ foot es' ++ dm := fun h => hx.2.2 (hsub x h)
        rw [List.mem_append, not_or] at hxd
        rw [g4 x, k2 x hx.1, fr x hx.2.2]
        rw [← g3.mem_iff, hf3]
        rintro (h | h)
        exacts [hxd.2 h, hx.1 h]

/-! ### `insert_covered` -/

omit [LE α] [DecidableLE α] in
theorem argMin_map {τ υ : Type} (f : υ → α) (h : τ → υ) (l : List τ) :
    argMin f (l.map h) = argMin (fun x => f (h x)) l := by
  cases l with
  | nil => rfl
  | cons a l => simp only [argMin, List.map_cons, List.foldl_map]

omit [LE α] [DecidableLE α] in
theorem Cover.argMin_eq (f : CNode L Unit → α) (l : List (CNode L Unit)) : Cover.argMin f l = argMin f l := by
  cases l <;> rfl

theorem split_at {τ : Type} {l : List τ} {i : Nat} {e : τ} (h : l[i]? = some e) :
    ∃ a b, l = a ++ e :: b ∧ a.length = i := by
  obtain ⟨hi, rfl⟩ := List.getElem?_eq_some_iff.1 h
  exact ⟨l.take i, l.drop (i + 1), by simp, by simp; omega⟩

/-- `find_parent` follows the path of the value model; a change of the node it finds is the change of the
value. -/
theorem descend (fuel : Nat) : ∀ (t t' n : CNode L Unit) (p q : Ptr) (f : List Ptr) (m : Mem α L) (N : Nat),
    Cover.insertCovered B (P.part _) dist fuel t n = .ok t' → Tree m t p f → (q :: f).Nodup → f.length ≤ N →
    ∃ pp s s' fs, findParent B dist n.index N p m = .ok pp ∧ Tree m s pp fs ∧ fs.Sublist f ∧
      ((s.children = [] ∧ s' = Cover.pushChild B s n) ∨ (s.children ≠ [] ∧ ∃ g, g < fuel ∧
        Cover.rebalance B (P.part _) dist (Cover.insertCovered B (P.part _) dist g) g s n = .ok s')) ∧
      ∀ m' fs', Tree m' s' pp fs' → fs'.Perm (q :: fs) → (∀ x ∉ q :: fs, m' x = m x) →
        ∃ f', Tree m' t' p f' ∧ f'.Perm (q :: f) := by
  induction fuel with
  | zero =>
    intro t t' n p q f m N h
    simp [Cover.insertCovered] at h
  | succ fuel ih =>
    intro t t' n p q f m N h ht hd hN
    have hpos := List.length_pos_of_mem (Stored.mem_self ht)
    obtain ⟨N, rfl⟩ : ∃ k, N = k + 1 := ⟨N - 1, by omega⟩
    have ht0 := ht
    obtain ⟨c, es, h1, h2, h3, h4, h5, h6, rfl⟩ := tree_iff.1 ht
    by_cases he : es = []
    · subst he
      have hc : c.children = [] := by rw [← h4]; rfl
      have htc : t.children = [] := by rw [← h5]; rfl
      rw [Cover.insertCovered, htc] at h
      simp only [Outcome.ok.injEq] at h
      subst h
      exact ⟨p, t, _, _, by simp [findParent, read_ok h1, hc], ht0, List.Sublist.refl _, Or.inl ⟨htc, rfl⟩,
        fun m' fs' a1 a2 _ => ⟨fs', a1, a2⟩⟩
    · have hc : c.children ≠ [] := by rw [← h4]; simpa using he
      have hne : t.children ≠ [] := by rw [← h5]; simpa using he
      have hstep : (match t.children[Cover.argMin (fun x => dist n.index x.index) t.children]? with
        | none => Outcome.ub
        | some m =>
          if dist n.index m.index ≤ B.child t.level then
            (Cover.insertCovered B (P.part _) dist fuel m n).bind fun m' =>
              .ok (t.setChildren (t.children.set (Cover.argMin (fun x => dist n.index x.index) t.children) m'))
          else Cover.rebalance B (P.part _) dist (Cover.insertCovered B (P.part _) dist fuel) fuel t n) = .ok t' := by
        rw [← h, Cover.insertCovered]
        obtain ⟨a, as, ha⟩ := List.exists_cons_of_ne_nil hne
        rw [ha]
        dsimp only
        cases (a :: as)[Cover.argMin (fun x => dist n.index x.index) (a :: as)]? <;> rfl
      obtain ⟨i, hi⟩ : ∃ i, i = argMin (fun e : Entry L Unit => dist n.index e.2.1.index) es := ⟨_, rfl⟩
      have hi1 : Cover.argMin (fun x => dist n.index x.index) t.children = i := by
        rw [Cover.argMin_eq, ← h5, argMin_map, hi]
      have hi2 : argMin (fun c : Ptr × Nat => dist n.index c.2) (es.map fun e => (e.1, e.2.1.index)) = i := by
        rw [argMin_map, hi]
      rw [hi1] at hstep
      cases hei : es[i]? with
      | none =>
        rw [← h5, List.getElem?_map, hei] at hstep
        simp at hstep
      | some e =>
        obtain ⟨pc, tc, fc⟩ := e
        have hti : t.children[i]? = some tc := by rw [← h5, List.getElem?_map, hei]; rfl
        simp only [hti] at hstep
        have hfind : findParent B dist n.index (N + 1) p m =
            if dist n.index tc.index ≤ B.child t.level then findParent B dist n.index N pc m else .ok p := by
          rw [findParent]
          simp only [read_ok h1, Outcome.bind_ok, if_neg hc]
          simp only [← h4, readIndices_map h6, Outcome.bind_ok, hi2, List.getElem?_map, hei, Option.map_some, h3]
        rw [hfind]
        by_cases hle : dist n.index tc.index ≤ B.child t.level
        · simp only [if_pos hle] at hstep ⊢
          cases hr : Cover.insertCovered B (P.part _) dist fuel tc n with
          | ub => rw [hr] at hstep; simp at hstep
          | oof => rw [hr] at hstep; simp [Outcome.bind] at hstep
          | ok tc' =>
            rw [hr] at hstep
            simp only [Outcome.bind_ok, Outcome.ok.injEq] at hstep
            subst hstep
            obtain ⟨a, b, rfl, hlen⟩ := split_at hei
            simp only [foot_append, foot_cons] at hd hN ⊢
            rw [List.nodup_cons, List.nodup_cons] at hd
            obtain ⟨hq, hp, hf⟩ := hd
            have hsub : fc.Sublist (foot a ++ (fc ++ foot b)) :=
              (List.sublist_append_left fc (foot b)).trans (List.sublist_append_right _ _)
            have hqc : (q :: fc).Nodup :=
              List.nodup_cons.2 ⟨fun h => hq (List.mem_cons_of_mem _ (hsub.subset h)), hf.sublist hsub⟩
            obtain ⟨pp, s, s', fs, k1, k2, k3, k4, k5⟩ := ih tc tc' n pc q fc m N hr
              (h6 (pc, tc, fc) (by simp)) hqc (by simp at hN; omega)
            refine ⟨pp, s, s', fs, k1, k2, (k3.trans hsub).trans (List.sublist_cons_self _ _), ?_, ?_⟩
            · rcases k4 with k4 | ⟨k4, g, k6, k7⟩
              exacts [Or.inl k4, Or.inr ⟨k4, g, by omega, k7⟩]
            · intro m' fs' a1 a2 a3
              obtain ⟨fc', b1, b2⟩ := k5 m' fs' a1 a2 a3
              have hout : ∀ x ∉ q :: fc, m' x = m x := fun x hx => a3 x fun h => hx (by
                rcases List.mem_cons.1 h with rfl | h
                · simp
                · exact List.mem_cons_of_mem _ (k3.subset h))
              rw [List.nodup_append, List.nodup_append] at hf
              obtain ⟨d1, ⟨d2, d3, d4⟩, d5⟩ := hf
              have hmp : m' p = some c := by
                rw [hout p, h1]
                intro h
                rcases List.mem_cons.1 h with rfl | h
                · exact hq (by simp)
                · exact hp (hsub.subset h)
              refine ⟨p :: (foot a ++ (fc' ++ foot b)), ?_, ?_⟩
              · refine tree_iff.2 ⟨c, a ++ (pc, tc', fc') :: b, hmp, by simpa using h2, by simpa using h3, ?_, ?_, ?_, by simp⟩
                · rw [← h4]; simp
                · rw [Cover.children_setChildren, ← h5]
                  simp only [List.map_append, List.map_cons]
                  rw [List.set_append_right _ _ (by simp [hlen])]
                  simp [hlen]
                · intro e hmem
                  rcases List.mem_append.1 hmem with hmem | hmem
                  · refine Stored.congr (h6 e (by simp [hmem])) fun x hx => hout x fun h => ?_
                    rcases List.mem_cons.1 h with rfl | h
                    · exact hq (by simp [mem_foot hmem hx])
                    · exact d5 x (mem_foot hmem hx) x (by simp [h]) rfl
                  · rcases List.mem_cons.1 hmem with rfl | hmem
                    · exact b1
                    · refine Stored.congr (h6 e (by simp [hmem])) fun x hx => hout x fun h => ?_
                      rcases List.mem_cons.1 h with rfl | h
                      · exact hq (by simp [mem_foot hmem hx])
                      · exact d4 x h x (mem_foot hmem hx) rfl
              · rw [List.perm_iff_count]
                intro x
                have := b2.count_eq x
                simp only [List.count_append, List.count_cons] at this ⊢
                omega
        · simp only [if_neg hle] at hstep ⊢
          exact ⟨p, t, t', _, rfl, ht0, List.Sublist.refl _, Or.inr ⟨hne, fuel, by omega, hstep⟩,
            fun m' fs' a1 a2 _ => ⟨fs', a1, a2⟩⟩

/-- `insert_covered` in memory. -/
theorem insertCovered_tree (fuel : Nat) : ∀ F, fuel ≤ F →
    InsOk (α := α) depth (Cover.insertCovered B (P.part _) dist fuel) (insertCovered B P dist depth F) := by
  induction fuel using Nat.strong_induction_on with
  | _ fuel ih =>
    intro F hF t n t' p q f m h ht hq hd hlen
    have hpos : 0 < fuel := by
      rcases Nat.eq_zero_or_pos fuel with rfl | h'
      · simp [Cover.insertCovered] at h
      · exact h'
    obtain ⟨F, rfl⟩ : ∃ g, F = g + 1 := ⟨F - 1, by omega⟩
    obtain ⟨pp, s, s', fs, k1, k2, k3, k4, k5⟩ := descend fuel t t' n p q f m depth h ht hd (by simp at hlen; omega)
    obtain ⟨cq, hq1, hq2, hq3, hq4⟩ := hq
    have hqs : (q :: fs).Nodup := hd.sublist (k3.cons_cons q)
    have hsubs : ∀ x, x ∉ q :: f → x ∉ q :: fs := fun x hx h => hx ((k3.cons_cons q).subset h)
    obtain ⟨cs, ess, s1, s2, s3, s4, s5, s6, s7⟩ := tree_iff.1 k2
    have hrun : insertCovered B P dist depth (F + 1) p q m = if cs.children = [] then pushChild B pp q m
        else rebalance B P dist (insertCovered B P dist depth F) depth F n.index pp q m := by
      rw [insertCovered]
      simp only [read_ok hq1, Outcome.bind_ok, hq2, k1, read_ok s1]
    have hch : cs.children = [] ↔ s.children = [] := by
      rw [← s4, ← s5]; simp
    rcases k4 with ⟨k4, rfl⟩ | ⟨k4, g, hg, k6⟩
    · obtain ⟨l, hl⟩ := Loose.tree (m := m) (q := q) (n := n) ⟨cq, hq1, hq2, hq3, hq4⟩
      obtain ⟨m', a1, a2, a3⟩ := pushChild_tree B k2 hl (by
        have : (fs ++ [q]).Perm (q :: fs) := by
          rw [List.perm_iff_count]; intro a; simp only [List.count_append, List.count_cons, List.count_nil]; omega
        exact this.nodup_iff.2 hqs)
      rw [Cover.pushChild_setLevel] at a2
      have hmem : ∀ x, x ∈ fs ++ [q] ↔ x ∈ q :: fs := fun x => by simp [or_comm]
      have hfr : ∀ x ∉ q :: fs, m' x = m x := fun x hx => a3 x fun h => hx ((hmem x).1 h)
      obtain ⟨f', b1, b2⟩ := k5 m' (fs ++ [q]) a2 (by
        rw [List.perm_iff_count]; intro a; simp only [List.count_append, List.count_cons, List.count_nil]; omega) hfr
      exact ⟨m', f', by rw [hrun, if_pos (hch.2 k4), a1], b1, b2, fun x hx => hfr x (hsubs x hx)⟩
    · obtain ⟨m', fs', a1, a2, a3, a4⟩ := rebalance_tree (B := B) (P := P) (dist := dist)
        (ih g hg F (by omega)) (show g ≤ F by omega) s n s' pp q fs m k6 k2 ⟨cq, hq1, hq2, hq3, hq4⟩ hqs (by
          have := (k3.cons_cons q).length_le; omega)
      obtain ⟨f', b1, b2⟩ := k5 m' fs' a2 a3 a4
      refine ⟨m', f', ?_, b1, b2, fun x hx => a4 x (hsubs x hx)⟩
      rw [hrun, if_neg fun e => k4 (hch.1 e)]
      simpa only [read_ok hq1, Outcome.bind_ok, hq2] using a1

/-! ### `insert` -/

omit [LT α] [LE α] [DecidableLT α] [DecidableLE α] in
theorem raise_tree (level : L) (fuel : Nat) : ∀ (F : Nat) (t t' : CNode L Unit) (p : Ptr) (f : List Ptr) (m : Mem α L),
    fuel ≤ F → Cover.raise B level fuel t = .ok t' → Tree m t p f → f.Nodup → f.length ≤ depth →
    ∃ p' m' f', raise B depth level F p m = .ok (p', m') ∧ Tree m' t' p' f' ∧ f'.Perm f ∧
      ∀ x ∉ f, m' x = m x := by
  induction fuel with
  | zero =>
    intro F t t' p f m _ h
    simp [Cover.raise] at h
  | succ fuel ih =>
    intro F t t' p f m hF h ht hf hlen
    obtain ⟨F, rfl⟩ : ∃ g, F = g + 1 := ⟨F - 1, by omega⟩
    obtain ⟨c, _, h1, h2, h3, _⟩ := tree_iff.1 ht
    rw [Cover.raise] at h
    rw [raise]
    simp only [read_ok h1, Outcome.bind_ok, h3]
    by_cases hl : B.lt t.level level = true
    · simp only [hl, if_true] at h ⊢
      cases hr : Cover.removeLeaf t with
      | ub => rw [hr] at h; simp at h
      | oof => rw [hr] at h; simp [Outcome.bind] at h
      | ok r =>
        rw [hr] at h
        simp only [Outcome.bind_ok] at h
        obtain ⟨q, m1, f1, a1, a2, a3, a4, a5⟩ := removeLeaf_tree depth t p f m r hr ht hf hlen
        obtain ⟨m2, b1, b2, b3⟩ := nodeToParent_tree B a2 a3 (a4.nodup_iff.2 hf)
        obtain ⟨p', m', f', d1, d2, d3, d4⟩ := ih F _ t' q (q :: f1) m2 (by omega) h b2 (a4.nodup_iff.2 hf)
          (by rw [a4.length_eq]; exact hlen)
        refine ⟨p', m', f', ?_, d2, d3.trans a4, fun x hx => ?_⟩
        · simp only [a1, Outcome.bind_ok, b1, d1]
        · have hx' : x ∉ q :: f1 := fun h => hx (a4.mem_iff.1 h)
          rw [d4 x hx', b3 x hx', a5 x hx]
    · simp only [hl] at h ⊢
      simp only [Bool.false_eq_true, if_false, Outcome.ok.injEq] at h ⊢
      subst h
      exact ⟨p, m, f, rfl, ht, .refl _, fun x _ => rfl⟩

/-- `insert` in memory. -/
theorem insert_tree [Add α] {fuel F : Nat} (hF : fuel ≤ F) {t t' n : CNode L Unit} {p q : Ptr} {f : List Ptr}
    {m : Mem α L} (h : Cover.insert B (P.part _) dist fuel t n = .ok t') (ht : Tree m t p f) (hq : Loose m q n)
    (hd : (q :: f).Nodup) (hlen : (q :: f).length ≤ depth) :
    ∃ p' m' f', insert B P dist depth F p q m = .ok (p', m') ∧ Tree m' t' p' f' ∧ f'.Perm (q :: f) ∧
      ∀ x ∉ q :: f, m' x = m x := by
  obtain ⟨c, _, h1, h2, h3, _⟩ := tree_iff.1 ht
  have hq0 := hq
  obtain ⟨cq, hq1, hq2, hq3, hq4⟩ := hq
  rw [Cover.insert] at h
  rw [insert]
  simp only [read_ok h1, read_ok hq1, Outcome.bind_ok, h2, h3, hq2]
  by_cases hdc : dist n.index t.index > B.cover t.level
  · rw [if_pos hdc] at h ⊢
    cases hr : Cover.raise B (B.floorLevel (B.cover t.level + dist n.index t.index)) fuel t with
    | ub => rw [hr] at h; simp at h
    | oof => rw [hr] at h; simp [Outcome.bind] at h
    | ok t1 =>
      rw [hr] at h
      simp only [Outcome.bind_ok, Outcome.ok.injEq] at h
      subst h
      rw [List.nodup_cons] at hd
      obtain ⟨p1, m1, f1, a1, a2, a3, a4⟩ := raise_tree (depth := depth) _ fuel F t t1 p f m hF hr ht hd.2
        (by simp at hlen; omega)
      have hq1' : q ∉ f1 := fun h => hd.1 (a3.mem_iff.1 h)
      obtain ⟨m2, b1, b2, b3⟩ := nodeToParent_tree B (hq0.congr (a4 q hd.1)) a2
        (List.nodup_cons.2 ⟨hq1', a3.nodup_iff.2 hd.2⟩)
      refine ⟨q, m2, q :: f1, ?_, b2, a3.cons q, fun x hx => ?_⟩
      · simp only [a1, Outcome.bind_ok, b1]
      · rw [b3 x fun h => hx ((a3.cons q).mem_iff.1 h), a4 x fun h => hx (List.mem_cons_of_mem _ h)]
  · rw [if_neg hdc] at h ⊢
    obtain ⟨m', f', a1, a2, a3, a4⟩ := insertCovered_tree fuel F hF t n t' p q f m h ht hq0 hd hlen
    exact ⟨p, m', f', by simp only [a1, Outcome.bind_ok], a2, a3, a4⟩

end Rebalance

end Pico.CoverMem
