import Verif.SpecForestMem
import Verif.Proof.ForestMem
import Verif.Props.Walk

/-!
# Programs that build, move and destroy forests
-/

set_option linter.unusedSectionVars false

namespace Pico

open Spec Props

section
variable {α : Type} [LinearOrder α] [Zero α] [One α] [Add α] [Sub α] [Neg α] [Mul α] {d : Nat}
variable {M : Malloc} {fails : Nat → Nat → Bool} {cs : Nat} {dyn : Bool} {left : Rot α d → Rot α d} {P : Platform α}
  {branch : Codec (Branch2 α d)} {S : Std}

/-- The coordinates of the points of a tree, one after the other. -/
def flatPoints (pts : Nat → Pt α d) (n : Nat) : List α := (List.range n).flatMap fun i => List.ofFn (pts i)

/-- The object `a` holds the tree `t`, whose points are in its memory. -/
def HoldsTree (st : Nat → Has α d (Branch2 α d) (Rot α d)) (t : RotTree α d) (a : Nat) : Prop :=
  ∃ n, TreeShape n t ∧ st a = .holds t.data ⟨t.rotation, flatPoints t.pts n⟩

theorem forall₂_imp_mem {ι κ : Type} {R R' : ι → κ → Prop} {l : List ι} {m : List κ} (h : List.Forall₂ R l m)
    (hi : ∀ a, ∀ b ∈ m, R a b → R' a b) : List.Forall₂ R' l m := by
  induction h with
  | nil => exact .nil
  | cons h _ ih => exact .cons (hi _ _ (by simp) h) (ih fun a b hb => hi a b (by simp [hb]))

theorem step_of (hc : 0 < cs) {w : World α d (Branch2 α d) (Rot α d)} {st : Nat → Has α d (Branch2 α d) (Rot α d)}
    (h : Reach M fails cs dyn left P branch w st []) (op : TreeOp α d (Branch2 α d) (Rot α d)) (ok : MayDo P branch st op)
    (hl : ∀ w : World α d (Branch2 α d) (Rot α d), losesChunks w op = []) :
    ∃ w' thrown, w.step M fails cs dyn left P branch op = .ok (w', thrown) ∧
      Reach M fails cs dyn left P branch w' (after P branch st thrown op) [] ∧
      (thrown = true → op.constructs = true ∧ ∃ t k, w.heap.time ≤ t ∧ k ≠ 0 ∧ fails t k = true) := by
  obtain ⟨O, i⟩ := Reach.inv hc h
  obtain ⟨w', t, O', e, -, ht⟩ := i.step (M := M) (fails := fails) (dyn := dyn) (left := left) hc ok
  have := Reach.step h ok e
  rw [hl w] at this
  exact ⟨w', t, e, this, ht⟩

theorem step_quiet (hc : 0 < cs) {w : World α d (Branch2 α d) (Rot α d)} {st : Nat → Has α d (Branch2 α d) (Rot α d)}
    (h : Reach M fails cs dyn left P branch w st []) (op : TreeOp α d (Branch2 α d) (Rot α d)) (ok : MayDo P branch st op)
    (hl : ∀ w : World α d (Branch2 α d) (Rot α d), losesChunks w op = []) (hq : op.constructs = false) :
    ∃ w', w.step M fails cs dyn left P branch op = .ok (w', false) ∧
      Reach M fails cs dyn left P branch w' (after P branch st false op) [] := by
  obtain ⟨w', t, e, r, ht⟩ := step_of hc h op ok hl
  cases t with
  | false => exact ⟨w', e, r⟩
  | true => simp [hq] at ht

theorem destroyAll_ok (hc : 0 < cs) {data : List Nat} (hd : data.Nodup) {w : World α d (Branch2 α d) (Rot α d)}
    {st : Nat → Has α d (Branch2 α d) (Rot α d)} (h : Reach M fails cs dyn left P branch w st [])
    (hs : ∀ a ∈ data, st a ≠ .absent) :
    ∃ w', ForestWorld.destroyAll M fails cs dyn left P branch w data = .ok w' ∧
      Reach M fails cs dyn left P branch w' (fun a => if a ∈ data then .absent else st a) [] := by
  induction data generalizing w st with
  | nil => exact ⟨w, rfl, by simpa using h⟩
  | cons a data ih =>
    obtain ⟨hd1, hd2⟩ := List.nodup_cons.1 hd
    obtain ⟨w1, e1, r1⟩ := step_quiet hc h (.destroy a) (hs a (by simp)) (fun _ => rfl) rfl
    obtain ⟨w2, e2, r2⟩ := ih hd2 r1 (fun b hb => by
      have : b ≠ a := fun h => hd1 (h ▸ hb)
      simpa [after, Function.update_of_ne this] using hs b (by simp [hb]))
    refine ⟨w2, ?_, ?_⟩
    · unfold ForestWorld.destroyAll at e2 ⊢
      rw [Outcome.foldl, e1, Outcome.bind_ok]
      exact e2
    · convert r2 using 2 with b
      by_cases hb : b = a
      · subst hb
        simp [after]
      · simp [after, hb]

theorem addTree_ok (hc : 0 < cs) {w : World α d (Branch2 α d) (Rot α d)}
    {st : Nat → Has α d (Branch2 α d) (Rot α d)} (h : Reach M fails cs dyn left P branch w st []) {N : Num α}
    {pts : Nat → Pt α d} {n indexBits maxLeafSize fuel : Nat} {r : Pt α d} {t : RotTree α d}
    (ht : Forest.makeTree S N pts n indexBits maxLeafSize fuel r = .ok t) {a : Nat}
    (ha : ∀ b ≥ a, st b = .absent) :
    ∃ w' thrown,
      ForestWorld.addTree M fails cs dyn left P branch S N pts n indexBits maxLeafSize fuel r w a = .ok (w', thrown) ∧
      (thrown = true → Reach M fails cs dyn left P branch w' st [] ∧ ∃ t k, k ≠ 0 ∧ fails t k = true) ∧
      (thrown = false → Reach M fails cs dyn left P branch w'
        (Function.update st (a + 2) (.holds t.data ⟨t.rotation, flatPoints t.pts n⟩)) []) := by
  obtain ⟨hrot, hpts, hb⟩ := Forest.makeTree_ok ht
  obtain ⟨s, hsp, hel⟩ := rotateSpace_elems r pts n
  unfold ForestWorld.addTree
  simp only [hsp, checked, Outcome.bind_ok, hel]
  obtain ⟨w1, th, e1, r1, hth⟩ := step_of (M := M) (fails := fails) (dyn := dyn) (left := left) hc h
    (.build a ⟨r, (List.range n).flatMap fun i => List.ofFn (rotatePoint r (pts i))⟩
      ⟨fun i => rotatePoint r (pts i), S, N, .sliding, .maxLeafSize maxLeafSize, indexBits, setBranchTopological⟩ n
      .fromSpace fuel) ⟨ha a le_rfl, t.data, hb⟩ (fun _ => rfl)
  have e1' := e1
  simp only [Forest.opts] at *
  rw [e1', Outcome.bind_ok]
  cases th with
  | true =>
    refine ⟨w1, true, by simp, fun _ => ⟨?_, ?_⟩, nofun⟩
    · simpa [after] using r1
    · obtain ⟨-, t, k, -, h2, h3⟩ := hth rfl
      exact ⟨t, k, h2, h3⟩
  | false =>
    have r1' : Reach M fails cs dyn left P branch w1
        (Function.update st a (.holds t.data ⟨t.rotation, flatPoints t.pts n⟩)) [] := by
      have e : after P branch st false (.build a (⟨r, (List.range n).flatMap fun i => List.ofFn (rotatePoint r (pts i))⟩ : Rot α d)
          ⟨fun i => rotatePoint r (pts i), S, N, .sliding, .maxLeafSize maxLeafSize, indexBits, setBranchTopological⟩ n
          .fromSpace fuel) = Function.update st a (.holds t.data ⟨t.rotation, flatPoints t.pts n⟩) := by
        simp only [after, hb, hrot, hpts, flatPoints]
      rw [e] at r1
      exact r1
    have h1 : st (a + 1) = .absent := ha _ (by omega)
    have h2 : st (a + 2) = .absent := ha _ (by omega)
    obtain ⟨w2, e2, r2⟩ := step_quiet hc r1' (.moveConstruct (a + 1) a) (by simp [MayDo, h1]) (fun _ => rfl) rfl
    obtain ⟨w3, e3, r3⟩ := step_quiet hc r2 (.moveConstruct (a + 2) (a + 1)) (by simp [MayDo, after, h2]) (fun _ => rfl) rfl
    obtain ⟨w4, e4, r4⟩ := step_quiet hc r3 (.destroy (a + 1)) (by simp [MayDo, after]) (fun _ => rfl) rfl
    obtain ⟨w5, e5, r5⟩ := step_quiet hc r4 (.destroy a) (by simp [MayDo, after]) (fun _ => rfl) rfl
    refine ⟨w5, false, ?_, nofun, fun _ => ?_⟩
    · simp [World.run, e2, e3, e4, e5]
    · convert r5 using 1
      funext b
      by_cases b0 : b = a
      · subst b0
        simp [after, ha b le_rfl]
      by_cases b1 : b = a + 1
      · subst b1
        simp [after, h1]
      by_cases b2 : b = a + 2
      · subst b2
        simp [after]
      simp [after, b0, b1, b2]

theorem addTrees_ok (hc : 0 < cs) {N : Num α} {pts : Nat → Pt α d} {n indexBits maxLeafSize fuel : Nat} (hn : 0 < n)
    (hm : 1 ≤ maxLeafSize ∧ maxLeafSize < 2 ^ (indexBits - 1)) {st₀ : Nat → Has α d (Branch2 α d) (Rot α d)}
    {rotations : List (Pt α d)} {ts : List (RotTree α d)}
    (hg : Grown S N pts n indexBits maxLeafSize fuel rotations ts) {w : World α d (Branch2 α d) (Rot α d)}
    {st : Nat → Has α d (Branch2 α d) (Rot α d)} (h : Reach M fails cs dyn left P branch w st []) {a : Nat}
    (ha : ∀ b ≥ a, st b = .absent) {data : List Nat} {done : List (RotTree α d)} (hd : List.Forall₂ (HoldsTree st) done data)
    (hdn : data.Nodup) (hst : ∀ b ∉ data, st b = st₀ b) (h₀ : ∀ b ∈ data, st₀ b = .absent) :
    ∃ w' a' out,
      ForestWorld.addTrees M fails cs dyn left P branch S N pts n indexBits maxLeafSize fuel rotations w a data =
        .ok (w', a', out) ∧ a ≤ a' ∧
      (out = none → Reach M fails cs dyn left P branch w' st₀ [] ∧ ∃ t k, k ≠ 0 ∧ fails t k = true) ∧
      ∀ data', out = some data' → ∃ st', Reach M fails cs dyn left P branch w' st' [] ∧
        List.Forall₂ (HoldsTree st') (done ++ ts) data' ∧ data'.Nodup ∧ (∀ b ∉ data', st' b = st₀ b) ∧
        (∀ b ∈ data', st₀ b = .absent) ∧ ∀ b ≥ a', st' b = .absent := by
  induction hg generalizing w st a data done with
  | nil =>
    refine ⟨w, a, some data, rfl, le_rfl, nofun, fun data' e => ?_⟩
    injection e with e
    subst e
    exact ⟨st, h, by simpa using hd, hdn, hst, h₀, ha⟩
  | @cons r t rs ts hr _ ih =>
    obtain ⟨w1, th, e1, b1, b2⟩ := addTree_ok hc h hr ha
    rw [ForestWorld.addTrees, e1, Outcome.bind_ok]
    cases th with
    | true =>
      obtain ⟨r1, hf⟩ := b1 rfl
      obtain ⟨w2, e2, r2⟩ := destroyAll_ok hc hdn r1 (fun b hb => by
        obtain ⟨t, -, n, -, h3⟩ := forall₂_right hd hb
        rw [h3]
        nofun)
      refine ⟨w2, a + 3, none, by simp [e2], by omega, fun _ => ⟨?_, hf⟩, nofun⟩
      convert r2 using 1
      funext b
      by_cases hb : b ∈ data
      · rw [if_pos hb, h₀ b hb]
      · rw [if_neg hb, hst b hb]
    | false =>
      have r1 := b2 rfl
      have hnew : a + 2 ∉ data := fun hb => by
        obtain ⟨t, -, n, -, h3⟩ := forall₂_right hd hb
        rw [ha _ (by omega)] at h3
        cases h3
      have hne : ∀ b ∈ data, b ≠ a + 2 := fun b hb h => hnew (h ▸ hb)
      obtain ⟨w2, a2, out, e2, hle, c1, c2⟩ := ih (a := a + 3) (data := data ++ [a + 2]) (done := done ++ [t]) r1
        (fun b hb => by rw [Function.update_of_ne (by omega)]; exact ha b (by omega))
        (by
          refine List.rel_append ?_ ?_
          · refine forall₂_imp_mem hd fun t' b hb ht' => ?_
            obtain ⟨k, h1, h2⟩ := ht'
            exact ⟨k, h1, by rw [Function.update_of_ne (hne b hb)]; exact h2⟩
          · exact .cons ⟨n, Forest.makeTree_shape hm hn hr, by simp⟩ .nil)
        (List.nodup_append'.2 ⟨hdn, by simp, by simpa using hnew⟩)
        (fun b hb => by
          rw [List.mem_append, List.mem_singleton, not_or] at hb
          rw [Function.update_of_ne hb.2]
          exact hst b hb.1)
        (fun b hb => by
          rcases List.mem_append.1 hb with hb | hb
          · exact h₀ b hb
          · rw [List.mem_singleton.1 hb, ← hst _ hnew]
            exact ha _ (by omega))
      refine ⟨w2, a2, out, by simpa using e2, by omega, c1, fun data' e => ?_⟩
      obtain ⟨st', d1, d2, d3⟩ := c2 data' e
      exact ⟨st', d1, by simpa using d2, d3⟩

/-! ## The invariant -/

theorem Grown.unique {N : Num α} {pts : Nat → Pt α d} {n indexBits maxLeafSize fuel : Nat} {rotations : List (Pt α d)}
    {ts ts' : List (RotTree α d)} (h : Grown S N pts n indexBits maxLeafSize fuel rotations ts)
    (h' : Grown S N pts n indexBits maxLeafSize fuel rotations ts') : ts = ts' := by
  induction h generalizing ts' with
  | nil => exact (List.forall₂_nil_left_iff.1 h').symm
  | cons h _ ih =>
    obtain ⟨t', l', h1, h2, rfl⟩ := List.forall₂_cons_left_iff.1 h'
    rw [h] at h1
    injection h1 with h1
    rw [h1, ih h2]

/-- The memory `u` has the forests `st`: every forest owns its trees, all trees are owned, and no memory is lost. -/
structure FInv (M : Malloc) (fails : Nat → Nat → Bool) (cs : Nat) (dyn : Bool) (left : Rot α d → Rot α d)
    (P : Platform α) (branch : Codec (Branch2 α d)) (u : ForestWorld α d) (st : Nat → Option (List (RotTree α d)))
    (tst : Nat → Has α d (Branch2 α d) (Rot α d)) : Prop where
  reach : Reach M fails cs dyn left P branch u.w tst []
  next : ∀ b ≥ u.next, tst b = .absent
  none : ∀ f, st f = none ↔ u.forests f = none
  holds : ∀ f ts data, st f = some ts → u.forests f = some data → List.Forall₂ (HoldsTree tst) ts data ∧ data.Nodup
  disjoint : ∀ f g data data', u.forests f = some data → u.forests g = some data' → ∀ a ∈ data, a ∈ data' → f = g
  owned : ∀ a, tst a ≠ .absent → ∃ f data, u.forests f = some data ∧ a ∈ data

variable {u : ForestWorld α d} {st : Nat → Option (List (RotTree α d))} {tst : Nat → Has α d (Branch2 α d) (Rot α d)}

theorem finv_empty : FInv M fails cs dyn left P branch (.empty : ForestWorld α d) (fun _ => none) fun _ => .absent where
  reach := .start
  next := fun _ _ => rfl
  none := fun f => by simp [ForestWorld.empty]
  holds := fun f ts data h => by cases h
  disjoint := fun f g data data' h => by simp [ForestWorld.empty] at h
  owned := fun a h => absurd rfl h

theorem FInv.get (i : FInv M fails cs dyn left P branch u st tst) {f : Nat} (h : st f ≠ Option.none) :
    ∃ ts data, st f = some ts ∧ u.forests f = some data ∧ List.Forall₂ (HoldsTree tst) ts data ∧ data.Nodup := by
  obtain ⟨ts, h1⟩ := Option.ne_none_iff_exists'.1 h
  obtain ⟨data, h2⟩ := Option.ne_none_iff_exists'.1 fun h' => h ((i.none f).2 h')
  obtain ⟨h3, h4⟩ := i.holds f ts data h1 h2
  exact ⟨ts, data, h1, h2, h3, h4⟩

theorem FInv.present (_ : FInv M fails cs dyn left P branch u st tst) {ts : List (RotTree α d)} {data : List Nat}
    (h : List.Forall₂ (HoldsTree tst) ts data) : ∀ a ∈ data, tst a ≠ .absent := by
  intro a ha
  obtain ⟨t, -, n, -, h3⟩ := forall₂_right h ha
  rw [h3]
  nofun

/-- The trees of one forest are destroyed; what happens to the vectors is left open. -/
theorem FInv.discard (hc : 0 < cs) (i : FInv M fails cs dyn left P branch u st tst) {f : Nat} {data : List Nat}
    (hf : u.forests f = some data) :
    ∃ w', ForestWorld.destroyAll M fails cs dyn left P branch u.w data = .ok w' ∧
      Reach M fails cs dyn left P branch w' (fun a => if a ∈ data then .absent else tst a) [] ∧
      (∀ b ≥ u.next, (if b ∈ data then .absent else tst b) = .absent) ∧
      (∀ g ts data', g ≠ f → st g = some ts → u.forests g = some data' →
        List.Forall₂ (HoldsTree fun a => if a ∈ data then .absent else tst a) ts data') := by
  obtain ⟨ts, data', h1, h2, h3, h4⟩ := i.get (f := f) fun h => by rw [i.none, hf] at h; cases h
  rw [hf] at h2
  injection h2 with h2
  subst h2
  obtain ⟨w', e, r⟩ := destroyAll_ok hc h4 i.reach (i.present h3)
  refine ⟨w', e, r, fun b hb => ?_, fun g ts' data' hg hs hd => ?_⟩
  · split
    · rfl
    · exact i.next b hb
  · refine forall₂_imp_mem (i.holds g ts' data' hs hd).1 fun t b hb ht => ?_
    have : b ∉ data := fun hb' => hg (i.disjoint g f data' data hd hf b hb hb')
    obtain ⟨n, g1, g2⟩ := ht
    exact ⟨n, g1, (if_neg this).trans g2⟩

theorem FInv.step (hc : 0 < cs) (i : FInv M fails cs dyn left P branch u st tst) {op : ForestOp α d}
    (ok : FMayDo S st op) :
    ∃ u' thrown, u.step M fails cs dyn left P branch S op = .ok (u', thrown) ∧
      (thrown = true → (∃ f N pts n b m k rs, op = .make f N pts n b m k rs) ∧ ∃ t k, k ≠ 0 ∧ fails t k = true) ∧
      (∃ st', FAfter S st thrown op st') ∧
      ∀ st', FAfter S st thrown op st' → ∃ tst', FInv M fails cs dyn left P branch u' st' tst' := by
  cases op with
  | make f N pts n indexBits maxLeafSize fuel rotations =>
    obtain ⟨h1, h2, h3, h4, ts, h5⟩ := ok
    have hf := (i.none f).1 h1
    obtain ⟨w', a', out, e, hle, c1, c2⟩ := addTrees_ok (M := M) (fails := fails) (dyn := dyn) (left := left) (P := P)
      (branch := branch) (st₀ := tst) hc h2 ⟨h3, h4⟩ h5 i.reach i.next (data := []) (done := []) .nil (by simp)
      (fun _ _ => rfl) (by simp)
    simp only [ForestWorld.step, hf, e, Outcome.bind_ok]
    cases out with
    | none =>
      obtain ⟨r, hfail⟩ := c1 rfl
      refine ⟨_, true, rfl, fun _ => ⟨⟨_, _, _, _, _, _, _, _, rfl⟩, hfail⟩, ⟨st, rfl⟩, fun st' hst' => ⟨tst, ?_⟩⟩
      have hst' : st' = st := hst'
      subst hst'
      exact ⟨r, fun b hb => i.next b (hle.trans hb), i.none, i.holds, i.disjoint, i.owned⟩
    | some data =>
      obtain ⟨tst', r, g1, g2, g3, g4, g5⟩ := c2 data rfl
      refine ⟨_, false, rfl, nofun, ⟨_, ts, h5, rfl⟩, fun st' hst' => ⟨tst', ?_⟩⟩
      obtain ⟨ts', k1, rfl⟩ : ∃ ts', Grown S N pts n indexBits maxLeafSize fuel rotations ts' ∧
        st' = Function.update st f (some ts') := hst'
      obtain rfl := Grown.unique h5 k1
      have fresh : ∀ g data', u.forests g = some data' → ∀ a ∈ data', a ∉ data := fun g data' hg a ha hd => by
        obtain ⟨ts', data'', -, q2, q3, -⟩ := i.get (f := g) fun h => by rw [i.none, hg] at h; cases h
        rw [hg] at q2
        injection q2 with q2
        subst q2
        exact i.present q3 a ha (g4 a hd)
      refine ⟨r, g5, fun g => ?_, fun g ts' data' hs hd => ?_, fun g g' data' data'' hg hg' a ha ha' => ?_,
        fun a ha => ?_⟩
      · by_cases hg : g = f
        · subst hg
          simp
        · simp [Function.update_of_ne hg, i.none]
      · by_cases hg : g = f
        · subst hg
          simp only [Function.update_self, Option.some.injEq] at hs hd
          subst hs hd
          exact ⟨by simpa using g1, g2⟩
        · rw [Function.update_of_ne hg] at hs
          dsimp only at hd
          rw [Function.update_of_ne hg] at hd
          obtain ⟨q1, q2⟩ := i.holds g ts' data' hs hd
          refine ⟨forall₂_imp_mem q1 fun t b hb ht => ?_, q2⟩
          obtain ⟨k, p1, p2⟩ := ht
          exact ⟨k, p1, by rw [g3 b (fresh g data' hd b hb)]; exact p2⟩
      · dsimp only at hg hg'
        by_cases k1 : g = f <;> by_cases k2 : g' = f
        · rw [k1, k2]
        · subst k1
          rw [Function.update_self, Option.some.injEq] at hg
          rw [Function.update_of_ne k2] at hg'
          subst hg
          exact absurd ha (fresh g' data'' hg' a ha')
        · subst k2
          rw [Function.update_self, Option.some.injEq] at hg'
          rw [Function.update_of_ne k1] at hg
          subst hg'
          exact absurd ha' (fresh g data' hg a ha)
        · rw [Function.update_of_ne k1] at hg
          rw [Function.update_of_ne k2] at hg'
          exact i.disjoint g g' data' data'' hg hg' a ha ha'
      · by_cases hd : a ∈ data
        · exact ⟨f, data, by simp, hd⟩
        · rw [g3 a hd] at ha
          obtain ⟨g, data', q1, q2⟩ := i.owned a ha
          refine ⟨g, data', ?_, q2⟩
          have : g ≠ f := fun h => by rw [h, hf] at q1; cases q1
          dsimp only
          rw [Function.update_of_ne this]
          exact q1
  | moveConstruct f g =>
    obtain ⟨h1, h2⟩ := ok
    have hf := (i.none f).1 h1
    obtain ⟨ts, data, q1, q2, q3, q4⟩ := i.get h2
    have hfg : g ≠ f := fun h => by rw [h, h1] at q1; cases q1
    simp only [ForestWorld.step, hf, q2]
    refine ⟨_, false, rfl, nofun, ⟨_, rfl⟩, fun st' hst' => ⟨tst, ?_⟩⟩
    have hst' : st' = Function.update (Function.update st g (some [])) f (st g) := hst'
    subst hst'
    refine ⟨i.reach, i.next, fun k => ?_, fun k ts' data' hs hd => ?_, fun k k' data' data'' hk hk' a ha ha' => ?_,
      fun a ha => ?_⟩
    · by_cases k1 : k = f
      · subst k1
        simp [q1]
      by_cases k2 : k = g
      · subst k2
        simp [k1]
      simp [k1, k2, i.none]
    · by_cases k1 : k = f
      · subst k1
        simp only [Function.update_self, Option.some.injEq, q1] at hs hd
        subst hs hd
        exact ⟨q3, q4⟩
      by_cases k2 : k = g
      · subst k2
        simp [k1] at hs hd
        subst hs hd
        exact ⟨.nil, by simp⟩
      simp only [Function.update_of_ne k1, Function.update_of_ne k2] at hs hd
      exact i.holds k ts' data' hs hd
    · -- the owner before
      have key : ∀ k data', Function.update (Function.update u.forests g (some [])) f (some data) k = some data' →
          a ∈ data' → (k = f ∧ a ∈ data) ∨ (k ≠ f ∧ k ≠ g ∧ u.forests k = some data') := by
        intro k data' hk ha
        by_cases k1 : k = f
        · subst k1
          rw [Function.update_self, Option.some.injEq] at hk
          exact .inl ⟨rfl, hk ▸ ha⟩
        by_cases k2 : k = g
        · subst k2
          rw [Function.update_of_ne k1, Function.update_self, Option.some.injEq] at hk
          rw [← hk] at ha
          simp at ha
        rw [Function.update_of_ne k1, Function.update_of_ne k2] at hk
        exact .inr ⟨k1, k2, hk⟩
      rcases key k data' hk ha with ⟨a1, a2⟩ | ⟨a1, a2, a3⟩ <;> rcases key k' data'' hk' ha' with ⟨b1, b2⟩ | ⟨b1, b2, b3⟩
      · rw [a1, b1]
      · exact absurd (i.disjoint k' g data'' data b3 q2 a ha' a2) b2
      · exact absurd (i.disjoint k g data' data a3 q2 a ha b2) a2
      · exact i.disjoint k k' data' data'' a3 b3 a ha ha'
    · obtain ⟨k, data', p1, p2⟩ := i.owned a ha
      by_cases k2 : k = g
      · subst k2
        rw [q2, Option.some.injEq] at p1
        exact ⟨f, data, by simp, p1 ▸ p2⟩
      have k1 : k ≠ f := fun h => by rw [h, hf] at p1; cases p1
      exact ⟨k, data', by simp [k1, k2, p1], p2⟩
  | moveAssign f g =>
    obtain ⟨h1, h2⟩ := ok
    obtain ⟨ts, data, q1, q2, q3, q4⟩ := i.get h2
    obtain ⟨tsf, dataf, s1, s2, s3, s4⟩ := i.get h1
    obtain ⟨w', e, r, d1, d2⟩ := i.discard hc s2
    simp only [ForestWorld.step, s2, q2, e, Outcome.bind_ok]
    refine ⟨_, false, rfl, nofun, ⟨_, rfl⟩, fun st' hst' => ⟨fun a => if a ∈ dataf then .absent else tst a, ?_⟩⟩
    have hst' : st' = Function.update (Function.update st f (st g)) g (some []) := hst'
    subst hst'
    refine ⟨r, d1, fun k => ?_, fun k ts' data' hs hd => ?_, fun k k' data' data'' hk hk' a ha ha' => ?_,
      fun a ha => ?_⟩
    · by_cases k2 : k = g
      · subst k2
        simp
      by_cases k1 : k = f
      · subst k1
        simp [k2, q1]
      simp [k1, k2, i.none]
    · by_cases k2 : k = g
      · subst k2
        simp at hs hd
        subst hs hd
        exact ⟨.nil, by simp⟩
      by_cases k1 : k = f
      · subst k1
        simp only [Function.update_of_ne k2, Function.update_self, Option.some.injEq, q1] at hs hd
        subst hs hd
        exact ⟨d2 g ts data (Ne.symm k2) q1 q2, q4⟩
      simp only [Function.update_of_ne k1, Function.update_of_ne k2] at hs hd
      exact ⟨d2 k ts' data' k1 hs hd, (i.holds k ts' data' hs hd).2⟩
    · have key : ∀ k data', Function.update (Function.update u.forests f (some data)) g (some []) k = some data' →
          a ∈ data' → (k = f ∧ k ≠ g ∧ a ∈ data) ∨ (k ≠ f ∧ k ≠ g ∧ u.forests k = some data') := by
        intro k data' hk ha
        by_cases k2 : k = g
        · subst k2
          rw [Function.update_self, Option.some.injEq] at hk
          rw [← hk] at ha
          simp at ha
        by_cases k1 : k = f
        · subst k1
          rw [Function.update_of_ne k2, Function.update_self, Option.some.injEq] at hk
          exact .inl ⟨rfl, k2, hk ▸ ha⟩
        rw [Function.update_of_ne k2, Function.update_of_ne k1] at hk
        exact .inr ⟨k1, k2, hk⟩
      rcases key k data' hk ha with ⟨a1, -, a2⟩ | ⟨a1, a2, a3⟩ <;>
        rcases key k' data'' hk' ha' with ⟨b1, -, b2⟩ | ⟨b1, b2, b3⟩
      · rw [a1, b1]
      · exact absurd (i.disjoint k' g data'' data b3 q2 a ha' a2) b2
      · exact absurd (i.disjoint k g data' data a3 q2 a ha b2) a2
      · exact i.disjoint k k' data' data'' a3 b3 a ha ha'
    · have hnf : a ∉ dataf := fun h => ha (if_pos h)
      rw [if_neg hnf] at ha
      obtain ⟨k, data', p1, p2⟩ := i.owned a ha
      have k1 : k ≠ f := fun h => by
        rw [h, s2, Option.some.injEq] at p1
        exact hnf (p1 ▸ p2)
      by_cases k2 : k = g
      · subst k2
        rw [q2, Option.some.injEq] at p1
        exact ⟨f, data, by simp [Ne.symm k1], p1 ▸ p2⟩
      exact ⟨k, data', by simp [k1, k2, p1], p2⟩
  | destroy f =>
    obtain ⟨ts, data, q1, q2, q3, q4⟩ := i.get ok
    obtain ⟨w', e, r, d1, d2⟩ := i.discard hc q2
    simp only [ForestWorld.step, q2, e, Outcome.bind_ok]
    refine ⟨_, false, rfl, nofun, ⟨_, rfl⟩, fun st' hst' => ⟨fun a => if a ∈ data then .absent else tst a, ?_⟩⟩
    have hst' : st' = Function.update st f Option.none := hst'
    subst hst'
    refine ⟨r, d1, fun k => ?_, fun k ts' data' hs hd => ?_, fun k k' data' data'' hk hk' a ha ha' => ?_,
      fun a ha => ?_⟩
    · by_cases k1 : k = f
      · subst k1
        simp
      simp [k1, i.none]
    · by_cases k1 : k = f
      · subst k1
        simp at hs
      simp only [Function.update_of_ne k1] at hs hd
      exact ⟨d2 k ts' data' k1 hs hd, (i.holds k ts' data' hs hd).2⟩
    · have key : ∀ k data', Function.update u.forests f Option.none k = some data' → u.forests k = some data' := by
        intro k data' hk
        by_cases k1 : k = f
        · subst k1
          simp at hk
        rwa [Function.update_of_ne k1] at hk
      exact i.disjoint k k' data' data'' (key k data' hk) (key k' data'' hk') a ha ha'
    · have hnf : a ∉ data := fun h => ha (if_pos h)
      rw [if_neg hnf] at ha
      obtain ⟨k, data', p1, p2⟩ := i.owned a ha
      have k1 : k ≠ f := fun h => by
        rw [h, q2, Option.some.injEq] at p1
        exact hnf (p1 ▸ p2)
      exact ⟨k, data', by simp [k1, p1], p2⟩

theorem FReach.inv (hc : 0 < cs) (h : FReach M fails cs dyn left P branch S u st) :
    ∃ tst, FInv M fails cs dyn left P branch u st tst := by
  induction h with
  | start => exact ⟨_, finv_empty⟩
  | step h ok e ha ih =>
    obtain ⟨tst, i⟩ := ih
    obtain ⟨u', th, e', -, -, hk⟩ := i.step hc ok
    rw [e] at e'
    injection e' with e'
    rw [Prod.mk.injEq] at e'
    obtain ⟨rfl, rfl⟩ := e'
    exact hk _ ha

end

end Pico
