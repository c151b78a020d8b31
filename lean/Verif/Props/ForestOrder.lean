import Verif.Proof.ForestOrder
import Verif.Props.Forest

/-!
# C126: a larger budget never gives a worse answer

Exact arithmetic (an ordered ring), any metric that adds up contributions of the axes. The queue compares distances and
then addresses, so it hands out its elements in a fixed order (`StdQueue.Ordered`).
-/

set_option linter.unusedSectionVars false

namespace Pico.Props

open Pico Pico.Spec

section
variable {α : Type} [CommRing α] [LinearOrder α] [IsStrictOrderedRing α] {d : Nat} {σ : Type}
  {M : Metric α d} {S : Std} {N : Num α} {pts : Nat → Pt α d} {n indexBits maxLeafSize fuel : Nat}
  {rotations more : List (Pt α d)} {F F' : Forest α d}

/-- What the trees of a forest satisfy. -/
theorem forest_queueOk (hM : EuclideanAdditive M) (hn : 0 < n)
    (hm : 1 ≤ maxLeafSize ∧ maxLeafSize < 2 ^ (indexBits - 1)) (hN : N.low ≤ N.big)
    (hp : ∀ r ∈ rotations, ∀ i < n, ∀ j, InRange N (rotatePoint r (pts i) j))
    (h : Forest.make M S N pts n indexBits maxLeafSize fuel rotations = .ok F) (x : Pt α d) (t : RotTree α d)
    (ht : t ∈ F.trees) : QueueOk M (rotatePoint t.rotation x) t.pts t.data.indices 0 t.data.root := by
  obtain ⟨-, -, hF⟩ := Forest.make_ok h
  obtain ⟨r, hr, hrt⟩ := forall₂_right hF ht
  have hsh := Forest.makeTree_shape hm hn hrt
  obtain ⟨hrot, hpts, hb⟩ := Forest.makeTree_ok hrt
  obtain ⟨-, -, box, hB⟩ := buildTree_built (by simp) hN (hp r hr) (by trivial) hn hb
  exact ⟨0, t.data.indices, box, [], [], fun _ => 0, by rw [hpts]; exact hB, rfl, by simp, hsh.nonempty, by simp,
    fun j => gap_nonneg hM _ _ _⟩

variable (hM : EuclideanAdditive M) (h0 : M.one 0 = 0) (hn : 0 < n)
  (hm : 1 ≤ maxLeafSize ∧ maxLeafSize < 2 ^ (indexBits - 1)) (hN : N.low ≤ N.big)
  (hp : ∀ r ∈ rotations, ∀ i < n, ∀ j, InRange N (rotatePoint r (pts i) j))
  (h : Forest.make M S N pts n indexBits maxLeafSize fuel rotations = .ok F)
include hM h0 hn hm hN hp h

/-- C126: on each tree the nodes are taken from the queue in the order of their distances, whatever the queue does with
equal distances. Only the points of the leaves below these nodes are presented to the visitor, in this order, and none
of them is closer than the distance of its node. -/
theorem c126_order (Q : StdQueue α (Tree (Branch2 α d))) (x : Pt α d) (maxLeaves fuel' : Nat) (V : Visitor α σ)
    (t : RotTree α d) (ht : t ∈ F.trees) (s s' : σ)
    (hs : prioritySearch Q M (rotatePoint t.rotation x) V (fun i => M.dist (rotatePoint t.rotation x) (t.pts i))
      t.data.indices maxLeaves fuel' t.data.root s = .ok s') :
    let dist := fun i => M.dist (rotatePoint t.rotation x) (t.pts i)
    let tr := priorityTrace Q M (rotatePoint t.rotation x) V dist t.data.indices maxLeaves fuel' 0
      (s, [(0, t.data.root)])
    (tr.map Prod.fst).Pairwise (· ≤ ·) ∧
      s' = visitAll V dist (tr.flatMap fun y => (t.data.indices.drop y.2.1).take (y.2.2 - y.2.1)) s ∧
      ∀ y ∈ tr, 0 ≤ y.1 ∧ ∀ i ∈ (t.data.indices.drop y.2.1).take (y.2.2 - y.2.1), y.1 ≤ dist i := by
  have hq := forest_queueOk hM hn hm hN hp h x t ht
  obtain ⟨h1, h2, h3, h4⟩ := priorityTrace_sorted M (rotatePoint t.rotation x) t.data.indices
    (QueueOk M (rotatePoint t.rotation x) t.pts t.data.indices) (fun D t' h => h.low hM)
    (fun D data l r h => ⟨(h.branch hM _ h0).1, (h.branch hM _ h0).2, h.grows hM⟩) Q maxLeaves fuel' 0 s s'
    [(0, t.data.root)] (by simpa using hq) hs
  exact ⟨h1, h3, fun y hy => ⟨h2 0 (by simp) y hy, h4 y hy⟩⟩

/-- Searching the trees of one forest and then others, with a larger budget. -/
theorem forest_better {R : σ → σ → Prop} (Q : Nat → StdQueue α (Tree (Branch2 α d))) (hQ : ∀ i, (Q i).Ordered) (x : Pt α d)
    {maxLeaves maxLeaves' : Nat} (hl : maxLeaves ≤ maxLeaves') (V : Visitor α σ) (hV : ∀ dist, Better V dist R)
    (hrefl : ∀ s, R s s) (hp' : ∀ r ∈ more, ∀ i < n, ∀ j, InRange N (rotatePoint r (pts i) j))
    (h' : Forest.make M S N pts n indexBits maxLeafSize fuel (rotations ++ more) = .ok F') (f f' : Nat) (s t t' : σ)
    (e : F.searchNearest Q f x maxLeaves V s = .ok t) (e' : F'.searchNearest Q f' x maxLeaves' V s = .ok t') :
    R t' t := by
  have hpp : ∀ r ∈ rotations ++ more, ∀ i < n, ∀ j, InRange N (rotatePoint r (pts i) j) := by
    intro r hr
    rcases List.mem_append.1 hr with hr | hr
    exacts [hp r hr, hp' r hr]
  have hok := forest_queueOk hM hn hm hN hpp h' x
  obtain ⟨hM1, -, hF⟩ := Forest.make_ok h
  obtain ⟨hM2, -, hF'⟩ := Forest.make_ok h'
  have hsplit : ∃ ts, F'.trees = F.trees ++ ts := by
    have key : ∀ (l : List (Pt α d)) (u v : List (RotTree α d)),
        List.Forall₂ (fun r t => Forest.makeTree S N pts n indexBits maxLeafSize fuel r = .ok t) (l ++ more) u →
        List.Forall₂ (fun r t => Forest.makeTree S N pts n indexBits maxLeafSize fuel r = .ok t) l v →
        ∃ ts, u = v ++ ts := by
      intro l
      induction l with
      | nil =>
        intro u v _ hv
        rw [List.forall₂_nil_left_iff] at hv
        exact ⟨u, by rw [hv]; rfl⟩
      | cons r l ih =>
        intro u v hu hv
        obtain ⟨a, u', ha, hu', rfl⟩ := List.forall₂_cons_left_iff.1 hu
        obtain ⟨b, v', hb, hv', rfl⟩ := List.forall₂_cons_left_iff.1 hv
        rw [ha] at hb
        injection hb with hb
        obtain ⟨ts, rfl⟩ := ih u' v' hu' hv'
        exact ⟨ts, by rw [hb]; rfl⟩
    exact key _ _ _ hF' hF
  obtain ⟨ts, hts⟩ := hsplit
  unfold Forest.searchNearest at e e'
  rw [hM1] at e
  rw [hM2, hts] at e'
  rw [hts] at hok
  generalize F.trees = l at e e' hok
  have step : ∀ y ∈ l ++ ts, ∀ j, ∀ s s' t t' : σ, R s' s →
      prioritySearch (Q j) M (rotatePoint y.rotation x) V (fun i => M.dist (rotatePoint y.rotation x) (y.pts i))
        y.data.indices maxLeaves f y.data.root s = .ok t →
      prioritySearch (Q j) M (rotatePoint y.rotation x) V (fun i => M.dist (rotatePoint y.rotation x) (y.pts i))
        y.data.indices maxLeaves' f' y.data.root s' = .ok t' → R t' t := by
    intro y hy j s s' t t' hR g g'
    exact priorityLoop_better M (rotatePoint y.rotation x) y.data.indices
      (QueueOk M (rotatePoint y.rotation x) y.pts y.data.indices) (fun D t' h => h.low hM)
      (fun D data l r h => ⟨(h.branch hM _ h0).1, (h.branch hM _ h0).2, h.grows hM⟩) (Q j) (hQ j) (hV _) hrefl hl f f' 0 s s' t t'
      _ _ [] (by simp) (by simpa using hok y hy) (by simp) hR g g'
  have step' : ∀ y ∈ l ++ ts, ∀ j, ∀ s s' t' : σ, R s' s →
      prioritySearch (Q j) M (rotatePoint y.rotation x) V (fun i => M.dist (rotatePoint y.rotation x) (y.pts i))
        y.data.indices maxLeaves' f' y.data.root s' = .ok t' → R t' s := by
    intro y hy j s s' t' hR g'
    exact priorityLoop_more M (rotatePoint y.rotation x) y.data.indices
      (QueueOk M (rotatePoint y.rotation x) y.pts y.data.indices) (fun D t' h => h.low hM)
      (fun D data l r h => ⟨(h.branch hM _ h0).1, (h.branch hM _ h0).2, h.grows hM⟩) (Q j) (hV _) maxLeaves' f' 0 s' s t'
      _ (by simpa using hok y hy) hR g'
  have rest : ∀ (k : List (RotTree α d)) (j : Nat), (∀ y ∈ k, y ∈ l ++ ts) → ∀ s s' t', R s' s →
      Outcome.foldl (fun s y => prioritySearch (Q y.2) M (rotatePoint y.1.rotation x) V
        (fun i => M.dist (rotatePoint y.1.rotation x) (y.1.pts i)) y.1.data.indices maxLeaves' f' y.1.data.root s) s'
        (k.zipIdx j) =
        .ok t' → R t' s := by
    intro k
    induction k with
    | nil =>
      intro _ _ s s' t' hR g
      simp only [List.zipIdx_nil, Outcome.foldl, Outcome.ok.injEq] at g
      exact g ▸ hR
    | cons y k ih =>
      intro j hk s s' t' hR g
      rw [List.zipIdx_cons, Outcome.foldl] at g
      cases g1 : prioritySearch (Q j) M (rotatePoint y.rotation x) V
          (fun i => M.dist (rotatePoint y.rotation x) (y.pts i)) y.data.indices maxLeaves' f' y.data.root s' with
      | ub => rw [g1] at g; simp [Outcome.bind] at g
      | oof => rw [g1] at g; simp [Outcome.bind] at g
      | ok u =>
        rw [g1] at g
        exact ih (j + 1) (fun z hz => hk z (by simp [hz])) s u t' (step' y (hk y (by simp)) j s s' u hR g1) g
  have both : ∀ (k : List (RotTree α d)) (j : Nat), (∀ y ∈ k, y ∈ l ++ ts) → ∀ s s' t t', R s' s →
      Outcome.foldl (fun s y => prioritySearch (Q y.2) M (rotatePoint y.1.rotation x) V
        (fun i => M.dist (rotatePoint y.1.rotation x) (y.1.pts i)) y.1.data.indices maxLeaves f y.1.data.root s) s
        (k.zipIdx j) = .ok t →
      Outcome.foldl (fun s y => prioritySearch (Q y.2) M (rotatePoint y.1.rotation x) V
        (fun i => M.dist (rotatePoint y.1.rotation x) (y.1.pts i)) y.1.data.indices maxLeaves' f' y.1.data.root s) s'
        ((k ++ ts).zipIdx j) =
        .ok t' → R t' t := by
    intro k
    induction k with
    | nil =>
      intro j _ s s' t t' hR g g'
      simp only [List.zipIdx_nil, Outcome.foldl, Outcome.ok.injEq] at g
      exact g ▸ rest ts j (fun y hy => List.mem_append_right _ hy) s s' t' hR g'
    | cons y k ih =>
      intro j hk s s' t t' hR g g'
      rw [List.cons_append] at g'
      rw [List.zipIdx_cons, Outcome.foldl] at g g'
      cases g1 : prioritySearch (Q j) M (rotatePoint y.rotation x) V
          (fun i => M.dist (rotatePoint y.rotation x) (y.pts i)) y.data.indices maxLeaves f y.data.root s with
      | ub => rw [g1] at g; simp [Outcome.bind] at g
      | oof => rw [g1] at g; simp [Outcome.bind] at g
      | ok u =>
        cases g2 : prioritySearch (Q j) M (rotatePoint y.rotation x) V
            (fun i => M.dist (rotatePoint y.rotation x) (y.pts i)) y.data.indices maxLeaves' f' y.data.root s' with
        | ub => rw [g2] at g'; simp [Outcome.bind] at g'
        | oof => rw [g2] at g'; simp [Outcome.bind] at g'
        | ok u' =>
          rw [g1] at g
          rw [g2] at g'
          exact ih (j + 1) (fun z hz => hk z (by simp [hz])) u u' t t' (step y (hk y (by simp)) j s s' u u' hR g1 g2) g g'
  exact both l 0 (fun y hy => List.mem_append_left _ hy) s s t t' (hrefl s) e e'

/-- C126: with a larger budget, or with more trees behind those of the first forest, or both, `search_nn` does not
return a larger distance. -/
theorem c126_nn (Q : Nat → StdQueue α (Tree (Branch2 α d))) (hQ : ∀ i, (Q i).Ordered) (x : Pt α d) {maxLeaves maxLeaves' : Nat}
    (hl : maxLeaves ≤ maxLeaves') (hp' : ∀ r ∈ more, ∀ i < n, ∀ j, InRange N (rotatePoint r (pts i) j))
    (h' : Forest.make M S N pts n indexBits maxLeafSize fuel (rotations ++ more) = .ok F') (f f' : Nat)
    (nn r r' : Neighbor α) (e : F.searchNn Q f x maxLeaves nn = .ok r) (e' : F'.searchNn Q f' x maxLeaves' nn = .ok r') :
    r'.distance ≤ r.distance := by
  obtain ⟨-, hN1, -⟩ := Forest.make_ok h
  obtain ⟨-, hN2, -⟩ := Forest.make_ok h'
  unfold Forest.searchNn at e e'
  rw [hN1] at e
  rw [hN2] at e'
  refine forest_better (R := fun s' s => s'.distance ≤ s.distance) hM h0 hn hm hN hp h Q hQ x hl nnVisitor (fun dist => ?_)
    (fun s => le_rfl) hp' h' f f' _ r r' e e'
  constructor
  · exact fun hR => hR
  · intro s' s hR i
    simp only [nnVisitor]
    split_ifs with h1 h2 h2
    exacts [le_rfl, h1.le.trans hR, not_lt.1 h1, hR]
  · intro s' s hR i
    simp only [nnVisitor]
    split_ifs with h1
    exacts [h1.le.trans hR, hR]
  · intro s' s hR i hi
    simp only [nnVisitor] at hi ⊢
    split_ifs with h1
    exacts [hi, hR]

/-- C126: a search with a radius then finds everything that the other one finds, at least as often. -/
theorem c126_radius (Q : Nat → StdQueue α (Tree (Branch2 α d))) (hQ : ∀ i, (Q i).Ordered) (x : Pt α d) {maxLeaves maxLeaves' : Nat}
    (hl : maxLeaves ≤ maxLeaves') (hp' : ∀ r ∈ more, ∀ i < n, ∀ j, InRange N (rotatePoint r (pts i) j))
    (h' : Forest.make M S N pts n indexBits maxLeafSize fuel (rotations ++ more) = .ok F') (f f' : Nat) (radius : α)
    (t t' : List (Neighbor α)) (e : F.searchNearest Q f x maxLeaves (radiusVisitor radius) [] = .ok t)
    (e' : F'.searchNearest Q f' x maxLeaves' (radiusVisitor radius) [] = .ok t') : t.Subperm t' := by
  refine forest_better (R := fun s' s => s.Subperm s') hM h0 hn hm hN hp h Q hQ x hl (radiusVisitor radius)
    (fun dist => ?_) (fun s => List.Subperm.refl _) hp' h' f f' _ t t' e e'
  constructor
  · exact fun _ => le_rfl
  · intro s' s hR i
    simp only [radiusVisitor]
    split_ifs with h1
    · exact (List.subperm_append_right _).2 hR
    · exact hR
  · intro s' s hR i
    simp only [radiusVisitor]
    split_ifs with h1
    · exact hR.trans (List.sublist_append_left _ _).subperm
    · exact hR
  · intro s' s hR i hi
    simp only [radiusVisitor] at hi ⊢
    rw [if_neg (not_lt.2 hi)]
    exact hR

end

/-! ## Concrete cases -/

/-- The tree as a list of numbers, in place of the address of its root. -/
def treeCode {d : Nat} : Tree (Branch2 ℚ d) → List ℚ
  | .leaf b e => [0, b, e]
  | .branch x l r => 1 :: (x.splitDim : ℕ) :: x.leftMin :: x.leftMax :: x.rightMin :: x.rightMax :: (treeCode l ++ treeCode r)

theorem treeCode_inj {d : Nat} : ∀ (t t' : Tree (Branch2 ℚ d)) (s s' : List ℚ), treeCode t ++ s = treeCode t' ++ s' →
    t = t' ∧ s = s' := by
  intro t
  induction t with
  | leaf b e =>
    intro t' s s' h
    cases t' with
    | leaf b' e' => simpa [treeCode, and_assoc] using h
    | branch x l r => simp [treeCode] at h
  | branch x l r ihl ihr =>
    intro t' s s' h
    cases t' with
    | leaf b' e' => simp [treeCode] at h
    | branch x' l' r' =>
      simp only [treeCode, List.cons_append, List.cons.injEq, List.append_assoc, Nat.cast_inj, true_and] at h
      obtain ⟨h1, h2, h3, h4, h5, h6⟩ := h
      obtain ⟨rfl, h7⟩ := ihl _ _ _ h6
      obtain ⟨rfl, rfl⟩ := ihr _ _ _ h7
      cases x
      cases x'
      simp only at h1 h2 h3 h4 h5
      simp [Fin.ext_iff, h1, h2, h3, h4, h5]

/-- What the queue compares: distances, then nodes. -/
def queueKey {d : Nat} (x : ℚ × Tree (Branch2 ℚ d)) : ℚ ×ₗ List ℚ := toLex (x.1, treeCode x.2)

theorem popKey_top {d : Nat} (x : ℚ × Tree (Branch2 ℚ d)) (l : List (ℚ × Tree (Branch2 ℚ d))) :
    ∃ y r, ((popMin ((x :: l).map fun x => (queueKey x, x))).map fun p => (p.1.2, p.2.map Prod.snd)) = some (y, r) ∧
      (y :: r).Perm (x :: l) ∧ ∀ z ∈ r, queueKey y ≤ queueKey z := by
  obtain ⟨y, r, h1, h2, h3⟩ := popMin_top (queueKey x, x) (l.map fun x => (queueKey x, x))
  have hg : ∀ z ∈ y :: r, z.1 = queueKey z.2 := by
    intro z hz
    have := h2.subset hz
    rw [← List.map_cons (f := fun x => (queueKey x, x))] at this
    obtain ⟨w, -, rfl⟩ := List.mem_map.1 this
    rfl
  refine ⟨y.2, r.map Prod.snd, by rw [List.map_cons, h1]; rfl, ?_, ?_⟩
  · have := h2.map Prod.snd
    simpa [List.map_map, Function.comp_def] using this
  · intro z hz
    obtain ⟨w, hw, rfl⟩ := List.mem_map.1 hz
    rw [← hg w (by simp [hw]), ← hg y (by simp)]
    exact h3 w hw

/-- A conforming queue that compares distances and then nodes. -/
def orderedQueue (d : Nat) : StdQueue ℚ (Tree (Branch2 ℚ d)) where
  pop l := (popMin (l.map fun x => (queueKey x, x))).map fun p => (p.1.2, p.2.map Prod.snd)
  empty := rfl
  top x l := by
    obtain ⟨y, r, h1, h2, h3⟩ := popKey_top x l
    exact ⟨y, r, h1, h2, fun z hz => Prod.Lex.monotone_fst (queueKey y) (queueKey z) (h3 z hz)⟩

theorem orderedQueue_ordered (d : Nat) : (orderedQueue d).Ordered := by
  refine ⟨fun x y => queueKey x ≤ queueKey y, fun x y h1 h2 => ?_, fun l y r h => ?_⟩
  · have := toLex.injective (le_antisymm h1 h2)
    simp only [Prod.mk.injEq] at this
    exact Prod.ext this.1 (treeCode_inj x.2 y.2 [] [] (by rw [this.2])).1
  · cases l with
    | nil => simp [orderedQueue, popMin] at h
    | cons x l =>
      obtain ⟨y', r', h1, -, h3⟩ := popKey_top x l
      have h := h1.symm.trans h
      simp only [Option.some.injEq, Prod.mk.injEq] at h
      obtain ⟨rfl, rfl⟩ := h
      exact h3

/-- The hypotheses of C126 can be met: one tree with a budget of one leaf, and two trees with a budget of five. The
answer is better. -/
example : ∃ F F', Forest.make (metricL2Sq ℚ 2) Ref.std Ref.ratNum plane5 5 32 1 20 [unit34] = .ok F ∧
    Forest.make (metricL2Sq ℚ 2) Ref.std Ref.ratNum plane5 5 32 1 20 ([unit34] ++ [![0, 1]]) = .ok F' ∧
    F.searchNn (fun _ => orderedQueue 2) 6 ![2, 0] 1 ⟨9, 0⟩ = .ok ⟨1, 5⟩ ∧
    F'.searchNn (fun _ => orderedQueue 2) 6 ![2, 0] 5 ⟨9, 0⟩ = .ok ⟨0, 4⟩ := by
  obtain ⟨F, h1, h2⟩ := Outcome.exists_of_check
    (x := Forest.make (metricL2Sq ℚ 2) Ref.std Ref.ratNum plane5 5 32 1 20 [unit34])
    (p := fun F => (F.searchNn (fun _ => orderedQueue 2) 6 ![2, 0] 1 ⟨9, 0⟩).check fun r => decide (r = ⟨1, 5⟩))
    (by decide +kernel)
  obtain ⟨F', h3, h4⟩ := Outcome.exists_of_check
    (x := Forest.make (metricL2Sq ℚ 2) Ref.std Ref.ratNum plane5 5 32 1 20 ([unit34] ++ [![0, 1]]))
    (p := fun F => (F.searchNn (fun _ => orderedQueue 2) 6 ![2, 0] 5 ⟨9, 0⟩).check fun r => decide (r = ⟨0, 4⟩))
    (by decide +kernel)
  obtain ⟨r, h5, h6⟩ := Outcome.exists_of_check h2
  obtain ⟨r', h7, h8⟩ := Outcome.exists_of_check h4
  rw [decide_eq_true_eq] at h6 h8
  subst h6 h8
  exact ⟨F, F', h1, h3, h5, h7⟩

/-- The order of the nodes in this tree, with a radius that keeps all of them in reach. -/
example : ((Forest.make (metricL2Sq ℚ 2) Ref.std Ref.ratNum plane5 5 32 1 20 [unit34]).check fun F =>
    F.trees.all fun t => decide ((priorityTrace (orderedQueue 2) (metricL2Sq ℚ 2) (rotatePoint t.rotation ![2, 0])
      (radiusVisitor 1000) (fun i => (metricL2Sq ℚ 2).dist (rotatePoint t.rotation ![2, 0]) (t.pts i)) t.data.indices 5
      6 0 ([], [(0, t.data.root)])) =
      [(0, 4, 5), (96 / 625, 3, 4), (5329 / 625, 2, 3), (50, 1, 2), (50, 0, 1)])) = true := by
  decide +kernel

end Pico.Props
