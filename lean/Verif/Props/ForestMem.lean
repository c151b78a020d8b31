import Verif.Proof.ForestObj
import Verif.Props.ForestOrder

/-!
# C133: forests in memory

For every program that builds, moves and destroys forests (`FReach`): nothing is undefined, nothing leaks, and the
searches from node to node through the memory are those of `Model/Forest.lean` (C47, C61, C126), with some queue for each
tree.  `depth` bounds the recursion of a search, `fuel` the leaves it visits.
-/

set_option linter.unusedSectionVars false

namespace Pico.Props

open Pico Spec

section
variable {α : Type} [LinearOrder α] [Zero α] [One α] [Add α] [Sub α] [Neg α] [Mul α] {d : Nat}
variable {B : Malloc} {fails : Nat → Nat → Bool} {cs : Nat} {dyn : Bool} {left : Rot α d → Rot α d} {P : Platform α}
  {branch : Codec (Branch2 α d)} {S : Std} {u u' : ForestWorld α d} {st : Nat → Option (List (RotTree α d))}

/-! ## Programs -/

/-- C133: nothing is undefined: no memory is freed twice, none is used that was freed.  Only the construction of a forest
throws, and only if a call of `new` failed. -/
theorem c133_defined (hc : 0 < cs) (h : FReach B fails cs dyn left P branch S u st) (op : ForestOp α d)
    (ok : FMayDo S st op) :
    ∃ u' thrown, u.step B fails cs dyn left P branch S op = .ok (u', thrown) ∧
      (thrown = true → (∃ f N pts n b m k rs, op = .make f N pts n b m k rs) ∧ ∃ t k, k ≠ 0 ∧ fails t k = true) ∧
      ∃ st', FAfter S st thrown op st' ∧ FReach B fails cs dyn left P branch S u' st' := by
  obtain ⟨tst, i⟩ := FReach.inv hc h
  obtain ⟨u', th, e, h1, ⟨st', h2⟩, -⟩ := i.step hc ok
  exact ⟨u', th, e, h1, st', h2, h.step ok e h2⟩

/-- C133: when no forest is left, no memory is; also if forests were assigned to, and if constructions threw. -/
theorem c133_freed (hc : 0 < cs) (h : FReach B fails cs dyn left P branch S u st) (hd : ∀ f, st f = none) :
    u.w.heap.live = [] := by
  obtain ⟨tst, i⟩ := FReach.inv hc h
  refine List.eq_nil_iff_forall_not_mem.2 fun x hx => ?_
  have := (c128_freed_partial hc i.reach (fun a => by
    by_contra ha
    obtain ⟨f, data, h1, -⟩ := i.owned a ha
    rw [(i.none f).1 (hd f)] at h1
    cases h1) x).1 hx
  simp at this

/-! ## Searches -/

/-- The search of one tree. -/
theorem searchTree_eq (hc : 0 < cs) {w : World α d (Branch2 α d) (Rot α d)}
    {tst : Nat → Has α d (Branch2 α d) (Rot α d)} (h : Reach B fails cs dyn left P branch w tst []) {t : RotTree α d}
    {a : Nat} (ht : HoldsTree tst t a) (Q : StdQueue α (Option Ptr)) :
    ∃ Q' : StdQueue α (Tree (Branch2 α d)), (Q.Ordered → Q'.Ordered) ∧
      ∀ {I : IterMetric α} {M : Metric α d} (_ : Computes I M) {σ : Type} (V : Visitor α σ) {q : List α}
        (hq : d ≤ q.length) {depth : Nat} (_ : height t.data.root < depth) (maxLeaves fuel : Nat) (s : σ),
        ForestWorld.searchTree Q depth fuel I w q maxLeaves V s a =
          prioritySearch Q' M (rotatePoint t.rotation (firstOf q hq)) V
            (fun i => M.dist (rotatePoint t.rotation (firstOf q hq)) (t.pts i)) t.data.indices maxLeaves fuel
            t.data.root s := by
  obtain ⟨n, hsh, ha⟩ := ht
  obtain ⟨o, f, h1, h2, h3, h4, -⟩ := walk_holds hc h ha
  obtain ⟨Q', hQ, key⟩ := prioritySearchP_eq h2 (tiles_nodup hsh.tiles hsh.nonempty) Q
  refine ⟨Q', hQ, fun {I M} hI {σ} V {q} hq {depth} hd maxLeaves fuel s => ?_⟩
  have hr := rotateQuery_eq t.rotation (firstOf q hq) q fun j => by
    rw [List.getElem?_eq_getElem (j.2.trans_le hq)]
    rfl
  unfold ForestWorld.searchTree
  rw [h1, Outcome.bind_ok, h3]
  dsimp only
  rw [hr, Outcome.bind_ok, h4, Outcome.bind_ok]
  refine key t.data.indices (fun r hr => ⟨(hsh.nonempty r hr).le.trans (hsh.le r hr), hsh.le r hr⟩) I M V _ _ _ _
    (rd_ofFn _) (fun i hi => ?_) hI.one depth hd maxLeaves fuel s
  have hi' : i < n := List.mem_range.1 (hsh.perm.subset hi)
  exact hI.dist _ _ _ (holds_map t.pts n i hi')

/-- C133: a search of a forest in memory is the search of its trees, for some queues that depend on the addresses of the
nodes (one for each tree; they hand out their elements in a fixed order if the given one does), but neither on the query
nor on the budget; whatever the program did before.  It is defined, and the same, for queries with more than `d`
scalars. -/
theorem c133_search (hc : 0 < cs) (h : FReach B fails cs dyn left P branch S u st) {f : Nat} {ts : List (RotTree α d)}
    (hf : st f = some ts) (Q : StdQueue α (Option Ptr)) :
    ∃ Qs : Nat → StdQueue α (Tree (Branch2 α d)), (Q.Ordered → ∀ i, (Qs i).Ordered) ∧
      ∀ {I : IterMetric α} {M : Metric α d} (_ : Computes I M) (N : Num α) {σ : Type} (V : Visitor α σ) {q : List α}
        (hq : d ≤ q.length) {depth : Nat} (_ : ∀ t ∈ ts, height t.data.root < depth) (maxLeaves fuel : Nat) (s : σ),
        u.searchNearest Q depth fuel I f q maxLeaves V s =
          (⟨M, N, ts⟩ : Forest α d).searchNearest Qs fuel (firstOf q hq) maxLeaves V s := by
  obtain ⟨tst, i⟩ := FReach.inv hc h
  obtain ⟨ts', data, h1, h2, h3, -⟩ := i.get (f := f) (by rw [hf]; nofun)
  rw [hf, Option.some.injEq] at h1
  subst h1
  -- a queue for each tree
  have each : ∀ j : Nat, ∃ Q' : StdQueue α (Tree (Branch2 α d)), (Q.Ordered → Q'.Ordered) ∧
      ∀ t a, ts[j]? = some t → data[j]? = some a →
      ∀ {I : IterMetric α} {M : Metric α d} (_ : Computes I M) {σ : Type} (V : Visitor α σ) {q : List α}
        (hq : d ≤ q.length) {depth : Nat} (_ : height t.data.root < depth) (maxLeaves fuel : Nat) (s : σ),
        ForestWorld.searchTree Q depth fuel I u.w q maxLeaves V s a =
          prioritySearch Q' M (rotatePoint t.rotation (firstOf q hq)) V
            (fun i => M.dist (rotatePoint t.rotation (firstOf q hq)) (t.pts i)) t.data.indices maxLeaves fuel
            t.data.root s := by
    intro j
    by_cases hj : ∃ t a, ts[j]? = some t ∧ data[j]? = some a
    · obtain ⟨t, a, e1, e2⟩ := hj
      have ht : HoldsTree tst t a := by
        obtain ⟨l1, e1'⟩ := List.getElem?_eq_some_iff.1 e1
        obtain ⟨l2, e2'⟩ := List.getElem?_eq_some_iff.1 e2
        have := (List.forall₂_iff_get.1 h3).2 j l1 l2
        simp only [List.get_eq_getElem, e1', e2'] at this
        exact this
      obtain ⟨Q', a1, a2⟩ := searchTree_eq hc i.reach ht Q
      refine ⟨Q', a1, fun t' a' e3 e4 => ?_⟩
      rw [e1, Option.some.injEq] at e3
      rw [e2, Option.some.injEq] at e4
      subst e3 e4
      exact a2
    · obtain ⟨Q', a1, -⟩ := Q.pull (τ := Tree (Branch2 α d)) (fun _ => False) (fun _ => none) (by simp)
      exact ⟨Q', a1, fun t a e1 e2 => absurd ⟨t, a, e1, e2⟩ hj⟩
  choose Qs hQ1 hQ2 using each
  refine ⟨Qs, fun hQ j => hQ1 j hQ, fun {I M} hI N {σ} V {q} hq {depth} hd maxLeaves fuel s => ?_⟩
  unfold ForestWorld.searchNearest Forest.searchNearest
  rw [h2]
  dsimp only
  have loop : ∀ (j : Nat) (ts' : List (RotTree α d)) (data' : List Nat), ts'.length = data'.length →
      (∀ k, ts'[k]? = ts[j + k]?) → (∀ k, data'[k]? = data[j + k]?) → (∀ t ∈ ts', height t.data.root < depth) → ∀ s : σ,
      Outcome.foldl (ForestWorld.searchTree Q depth fuel I u.w q maxLeaves V) s data' =
        Outcome.foldl (fun s t => prioritySearch (Qs t.2) M (rotatePoint t.1.rotation (firstOf q hq)) V
          (fun i => M.dist (rotatePoint t.1.rotation (firstOf q hq)) (t.1.pts i)) t.1.data.indices maxLeaves fuel
          t.1.data.root s) s (ts'.zipIdx j) := by
    intro j ts'
    induction ts' generalizing j with
    | nil =>
      intro data' hl _ _ _ s
      rw [List.length_eq_zero_iff.1 hl.symm]
      rfl
    | cons t ts' ih =>
      intro data' hl hk1 hk2 hd s
      obtain ⟨a, data', rfl⟩ : ∃ a l, data' = a :: l := List.exists_cons_of_length_pos (by rw [← hl]; simp)
      rw [List.zipIdx_cons, Outcome.foldl, Outcome.foldl,
        hQ2 j t a (by simpa using (hk1 0).symm) (by simpa using (hk2 0).symm) hI V hq (hd t (by simp)) maxLeaves fuel s]
      congr 1
      funext s'
      exact ih (j + 1) data' (by simpa using hl) (fun k => by
          have := hk1 (k + 1)
          rwa [List.getElem?_cons_succ, show j + (k + 1) = j + 1 + k by omega] at this)
        (fun k => by
          have := hk2 (k + 1)
          rwa [List.getElem?_cons_succ, show j + (k + 1) = j + 1 + k by omega] at this) (fun t ht => hd t (by simp [ht])) s'
  exact loop 0 ts data h3.length_eq (by simp) (by simp) hd s

/-- C133: a forest without trees, as a move leaves it: a search visits nothing, and accepts any query. -/
theorem c133_empty (hc : 0 < cs) (h : FReach B fails cs dyn left P branch S u st) {f : Nat} (hf : st f = some [])
    (Q : StdQueue α (Option Ptr)) (depth fuel : Nat) (I : IterMetric α) (q : List α) (maxLeaves : Nat) {σ : Type}
    (V : Visitor α σ) (s : σ) : u.searchNearest Q depth fuel I f q maxLeaves V s = .ok s := by
  obtain ⟨tst, i⟩ := FReach.inv hc h
  obtain ⟨ts', data, h1, h2, h3, -⟩ := i.get (f := f) (by rw [hf]; nofun)
  rw [hf, Option.some.injEq] at h1
  subst h1
  rw [List.forall₂_nil_left_iff] at h3
  subst h3
  simp only [ForestWorld.searchNearest, h2]
  rfl

/-- C133: moves.  The new forest answers as the old one did (same trees), and the old one is empty; so is a forest that
was assigned to itself. -/
theorem c133_move (hc : 0 < cs) (h : FReach B fails cs dyn left P branch S u st) (f g : Nat) {ts : List (RotTree α d)}
    (hg : st g = some ts) :
    (st f = none → ∃ u', u.step B fails cs dyn left P branch S (.moveConstruct f g) = .ok (u', false) ∧
      ∃ st', FReach B fails cs dyn left P branch S u' st' ∧ st' f = some ts ∧ st' g = some [] ∧
        ∀ k, k ≠ f → k ≠ g → st' k = st k) ∧
    (st f ≠ none → ∃ u', u.step B fails cs dyn left P branch S (.moveAssign f g) = .ok (u', false) ∧
      ∃ st', FReach B fails cs dyn left P branch S u' st' ∧ (f ≠ g → st' f = some ts) ∧ st' g = some [] ∧
        ∀ k, k ≠ f → k ≠ g → st' k = st k) := by
  have quiet : ∀ op, FMayDo S st op → (∀ f N pts n b m k rs, op ≠ .make f N pts n b m k rs) →
      ∃ u', u.step B fails cs dyn left P branch S op = .ok (u', false) ∧
        ∃ st', FAfter S st false op st' ∧ FReach B fails cs dyn left P branch S u' st' := by
    intro op ok hne
    obtain ⟨u', th, e, h1, st', h2, h3⟩ := c133_defined hc h op ok
    cases th with
    | false => exact ⟨u', e, st', h2, h3⟩
    | true =>
      obtain ⟨⟨_, _, _, _, _, _, _, _, h4⟩, -⟩ := h1 rfl
      exact absurd h4 (hne _ _ _ _ _ _ _ _)
  constructor
  · intro hf
    obtain ⟨u', e, st', h2, h3⟩ := quiet (.moveConstruct f g) ⟨hf, by rw [hg]; nofun⟩ (by intros; nofun)
    have h2 : st' = Function.update (Function.update st g (some [])) f (st g) := h2
    have hfg : g ≠ f := fun h => by rw [h, hf] at hg; cases hg
    subst h2
    exact ⟨u', e, _, h3, by simp [hg], by simp [hfg], fun k k1 k2 => by simp [k1, k2]⟩
  · intro hf
    obtain ⟨u', e, st', h2, h3⟩ := quiet (.moveAssign f g) ⟨hf, by rw [hg]; nofun⟩ (by intros; nofun)
    have h2 : st' = Function.update (Function.update st f (st g)) g (some []) := h2
    subst h2
    exact ⟨u', e, _, h3, fun hfg => by simp [hfg, hg], by simp, fun k k1 k2 => by simp [k1, k2]⟩

/-- C133 is false for queries that are too short: they are read beyond their end. -/
theorem c133_short_false (hc : 0 < cs) (h : FReach B fails cs dyn left P branch S u st) {f : Nat} {t : RotTree α d}
    {ts : List (RotTree α d)} (hf : st f = some (t :: ts)) (Q : StdQueue α (Option Ptr)) (depth fuel : Nat)
    (I : IterMetric α) {q : List α} (hq : q.length < d) (maxLeaves : Nat) {σ : Type} (V : Visitor α σ) (s : σ) :
    u.searchNearest Q depth fuel I f q maxLeaves V s = .ub := by
  obtain ⟨tst, i⟩ := FReach.inv hc h
  obtain ⟨ts', data, h1, h2, h3, -⟩ := i.get (f := f) (by rw [hf]; nofun)
  rw [hf, Option.some.injEq] at h1
  subst h1
  obtain ⟨a, data, ht, -, rfl⟩ := List.forall₂_cons_left_iff.1 h3
  obtain ⟨n, hsh, ha⟩ := ht
  obtain ⟨o, f, k1, k2, k3, k4, -⟩ := walk_holds hc i.reach ha
  simp only [ForestWorld.searchNearest, h2, Outcome.foldl, ForestWorld.searchTree, k1, Outcome.bind_ok,
    rotateQuery_ub _ q hq]
  rfl

end

/-! ## Answers -/

section
variable {α : Type} [CommRing α] [LinearOrder α] [IsStrictOrderedRing α] {d : Nat}
variable {B : Malloc} {fails : Nat → Nat → Bool} {cs : Nat} {dyn : Bool} {left : Rot α d → Rot α d} {P : Platform α}
  {branch : Codec (Branch2 α d)} {S : Std} {u : ForestWorld α d} {st : Nat → Option (List (RotTree α d))}
  {N : Num α} {pts : Nat → Pt α d} {n indexBits maxLeafSize fuel : Nat} {rotations : List (Pt α d)} {F : Forest α d}

/-- C133: `search_nn` of a forest in memory, with a budget of all points, gives the nearest neighbor; wherever the forest
was moved since it was built. -/
theorem c133_nn (hc : 0 < cs) (h : FReach B fails cs dyn left P branch S u st) (hn : 0 < n)
    (hm : 1 ≤ maxLeafSize ∧ maxLeafSize < 2 ^ (indexBits - 1)) (hunit : ∀ r ∈ rotations, ∑ j, r j ^ 2 = 1)
    (hN : N.low ≤ N.big) (hp : ∀ r ∈ rotations, ∀ i < n, ∀ j, InRange N (rotatePoint r (pts i) j))
    (hF : Forest.make (metricL2Sq α d) S N pts n indexBits maxLeafSize fuel rotations = .ok F) {f : Nat}
    (hf : st f = some F.trees) (Q : StdQueue α (Option Ptr)) {q : List α} (hq : d ≤ q.length)
    (hbig : ∀ i < n, l2Sq (firstOf q hq) (pts i) < N.big) (hne : rotations ≠ []) {depth : Nat}
    (hd : ∀ t ∈ F.trees, height t.data.root < depth) {maxLeaves fuel' : Nat} (hl : n ≤ maxLeaves) (hfu : n < fuel')
    (nn : Neighbor α) :
    ∃ r, u.searchNn Q depth fuel' (iterL2Sq α) N f q maxLeaves nn = .ok r ∧
      IsNN n (fun i => l2Sq (firstOf q hq) (pts i)) r := by
  obtain ⟨Qs, -, hQ⟩ := c133_search hc h hf Q
  obtain ⟨r, h1, h2⟩ := c47_exact_points hn hm hunit hN hp hF Qs (firstOf q hq) maxLeaves fuel' hfu hbig hne hl nn
  refine ⟨r, ?_, h2⟩
  obtain ⟨hM, hN', -⟩ := Forest.make_ok hF
  rw [← h1]
  unfold ForestWorld.searchNn Forest.searchNn
  rw [hQ (computes_l2 (α := α) (d := d)) N nnVisitor hq hd maxLeaves fuel' (nnInit N nn), ← hM, ← hN']

/-- C133: a larger budget gives no worse neighbor, whatever the budget, if the queue hands out its elements in a fixed
order. -/
theorem c133_budget (hc : 0 < cs) (h : FReach B fails cs dyn left P branch S u st) (hn : 0 < n)
    (hm : 1 ≤ maxLeafSize ∧ maxLeafSize < 2 ^ (indexBits - 1)) (hN : N.low ≤ N.big)
    (hp : ∀ r ∈ rotations, ∀ i < n, ∀ j, InRange N (rotatePoint r (pts i) j))
    (hF : Forest.make (metricL2Sq α d) S N pts n indexBits maxLeafSize fuel rotations = .ok F) {f : Nat}
    (hf : st f = some F.trees) (Q : StdQueue α (Option Ptr)) (hQo : Q.Ordered) {q : List α} (hq : d ≤ q.length)
    {depth : Nat} (hd : ∀ t ∈ F.trees, height t.data.root < depth) {maxLeaves maxLeaves' : Nat}
    (hl : maxLeaves ≤ maxLeaves') (f₁ f₂ : Nat) (nn r r' : Neighbor α)
    (e : u.searchNn Q depth f₁ (iterL2Sq α) N f q maxLeaves nn = .ok r)
    (e' : u.searchNn Q depth f₂ (iterL2Sq α) N f q maxLeaves' nn = .ok r') : r'.distance ≤ r.distance := by
  obtain ⟨Qs, hQ1, hQ⟩ := c133_search hc h hf Q
  obtain ⟨hM, hN', -⟩ := Forest.make_ok hF
  unfold ForestWorld.searchNn at e e'
  rw [hQ (computes_l2 (α := α) (d := d)) N nnVisitor hq hd _ _ _] at e e'
  have ex : ∀ k m, (⟨metricL2Sq α d, N, F.trees⟩ : Forest α d).searchNearest Qs k (firstOf q hq) m nnVisitor
      (nnInit N nn) = F.searchNn Qs k (firstOf q hq) m nn := by
    intro k m
    unfold Forest.searchNn
    rw [← hM, ← hN']
  rw [ex] at e e'
  exact c126_nn (more := []) additive_l2Sq (by simp [metricL2Sq, squared]) hn hm hN hp hF Qs (hQ1 hQo) (firstOf q hq) hl
    (by simp) (by simpa using hF) f₁ f₂ nn r r' e e'

end

/-! ## Concrete cases -/

/-- A forest of the five points, two trees with leaves of one point: the points are reflected in one axis, then in the
other. -/
def growForest (f : Nat) : ForestOp ℤ 2 := .make f Ref.intNum Ref.pts5 5 32 1 10 [![0, 1], ![1, 0]]

/-- A forest of one tree of three of the points. -/
def growForest3 (f : Nat) : ForestOp ℤ 2 := .make f Ref.intNum Ref.pts5 3 32 1 10 [![0, 1]]

/-- A program with chunks of two nodes. -/
def forestRun (dyn : Bool) (fails : Nat → Nat → Bool) (ops : List (ForestOp ℤ 2)) :
    Outcome (ForestWorld ℤ 2 × List Bool) :=
  ForestWorld.empty.run bump fails 2 dyn id movesPlatform (movesPlatform.branch2 2) Ref.std ops

/-- The answer of a forest. -/
def forestAsk (r : ForestWorld ℤ 2 × List Bool) (f : Nat) (q : List ℤ) (maxLeaves : Nat) : Outcome (Neighbor ℤ) :=
  r.1.searchNn (refQueue ℤ _) 6 6 (iterL2Sq ℤ) Ref.intNum f q maxLeaves ⟨9, 0⟩

/-- Two forests; the first is moved twice, the second time into the place of the second.  It answers from there; nothing
is left of it where it was.  Then all memory is freed. -/
example : (forestRun true (fun _ _ => false) [growForest 0, growForest3 1, .moveConstruct 2 0, .moveAssign 1 2]).check
      (fun r => (forestAsk r 1 [3, 3] 5).check (fun n => decide (n = ⟨1, 5⟩)) &&
        (forestAsk r 1 [3, 3, 8] 5).check (fun n => decide (n = ⟨1, 5⟩)) &&
        (forestAsk r 0 [3, 3] 5).check (fun n => decide (n = ⟨9, 2147483647⟩)) &&
        (forestAsk r 2 [] 5).check (fun n => decide (n = ⟨9, 2147483647⟩))) = true ∧
    (forestRun true (fun _ _ => false) [growForest 0, growForest3 1, .moveConstruct 2 0, .moveAssign 1 2, .destroy 2,
      .destroy 1, .destroy 0]).check (fun r => decide (r.1.w.heap.live = [] ∧ r.2 = List.replicate 7 false)) = true := by
  decide +kernel

/-- The construction of the second tree of the second forest runs out of memory: nothing of it is left, the first forest
answers as before. -/
example : (forestRun false (fun t _ => t == 16) [growForest 0, growForest 1]).check
      (fun r => decide (r.2 = [false, true] ∧ r.1.w.heap.live.length = 12) &&
        (forestAsk r 0 [3, 3] 5).check (fun n => decide (n = ⟨1, 5⟩))) = true := by
  decide +kernel

/-- A forest that is assigned to itself loses its trees. -/
example : (forestRun false (fun _ _ => false) [growForest 0, .moveAssign 0 0]).check
    (fun r => decide (r.1.w.heap.live = []) &&
      (forestAsk r 0 [3, 3] 5).check (fun n => decide (n = ⟨9, 2147483647⟩))) = true := by
  decide +kernel

/-- The hypotheses of the theorems are met: a forest that was built and moved. -/
example : ∃ (u : ForestWorld ℤ 2) (st : Nat → Option (List (RotTree ℤ 2))) (F : Forest ℤ 2),
    FReach bump (fun _ _ => false) 2 true id movesPlatform (movesPlatform.branch2 2) Ref.std u st ∧
    Forest.make (metricL2Sq ℤ 2) Ref.std Ref.intNum Ref.pts5 5 32 1 10 [![0, 1], ![1, 0]] = .ok F ∧
    st 1 = some F.trees ∧ st 0 = some [] ∧ (∀ t ∈ F.trees, height t.data.root < 6) ∧
    (∀ r ∈ [![0, 1], ![1, 0]], ∑ j, (r j : ℤ) ^ 2 = 1) ∧
    ∀ r ∈ [![0, 1], ![1, 0]], ∀ i < 5, ∀ j, InRange Ref.intNum (rotatePoint r (Ref.pts5 i) j) := by
  obtain ⟨F, hF, hp⟩ := Outcome.exists_of_check
    (x := Forest.make (metricL2Sq ℤ 2) Ref.std Ref.intNum Ref.pts5 5 32 1 10 [![0, 1], ![1, 0]])
    (p := fun F => decide (∀ t ∈ F.trees, height t.data.root < 6)) (by decide +kernel)
  obtain ⟨-, -, hg⟩ := Forest.make_ok hF
  obtain ⟨u1, th, e1, h1, st1, h2, h3⟩ := c133_defined (B := bump) (fails := fun _ _ => false) (cs := 2) (dyn := true)
    (left := id) (P := movesPlatform) (branch := movesPlatform.branch2 2) (S := Ref.std) (by decide) .start
    (growForest 0) ⟨rfl, by decide, by decide, by decide, F.trees, hg⟩
  have hth : th = false := by
    cases th with
    | false => rfl
    | true =>
      obtain ⟨-, _, _, -, h⟩ := h1 rfl
      cases h
  subst hth
  obtain ⟨ts, k1, rfl⟩ : ∃ ts, Grown Ref.std Ref.intNum Ref.pts5 5 32 1 10 [![0, 1], ![1, 0]] ts ∧
    st1 = Function.update (fun _ => none) 0 (some ts) := h2
  obtain rfl := Grown.unique hg k1
  obtain ⟨u2, e2, st2, r2, h4, h5, -⟩ := (c133_move (ts := F.trees) (by decide) h3 1 0 (by simp)).1 (by simp)
  exact ⟨u2, st2, F, r2, hF, h4, h5, of_decide_eq_true hp, by decide +kernel, by unfold InRange; decide +kernel⟩

end Pico.Props
