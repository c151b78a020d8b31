import Verif.Proof.Approx
import Verif.Proof.Topo
import Verif.Ref
import Mathlib.Tactic.FinCases

/-!
# C01, C02, C04, C05, C06, C07, C10, C11, C14, C15: nearest neighbor, k nearest neighbor and radius
searches, exact and approximate

All theorems: `make ... = .ok T` says that the construction finished (see C22 for when it does),
`Representable` that coordinates lie between `lowest()` and `max()` of the scalar type and that the
computed midpoint of an interval lies in it, `... < N.big` that all distances are below
`numeric_limits::max()`.
-/

set_option linter.unusedSectionVars false

namespace Pico.Props

open Pico

section Transfer
variable {α : Type} [LinearOrder α] [Zero α] [Add α] [Sub α] {d : Nat} {β : Type}
  {tag : SpaceTag α d β} {M : Metric α d} {N : Num α} {pts : Nat → Pt α d} {n : Nat}
  {o : BuildOpts α d} {fuel : Nat} {T : KdTree α d β} {q : Pt α d}

theorem nn_of_exact (h : KdTree.make tag M N pts n o fuel = .ok T) (hE : ExactAt T q) (hn : 0 < n)
    {dist : Nat → α} (hd : (fun i => M.dist q (pts i)) = dist) (hbig : ∀ i < n, dist i < N.big)
    (nn : Neighbor α) : Spec.IsNN n dist (T.searchNn q nn) := by
  obtain ⟨_, rfl, rfl, rfl, rfl, _⟩ := KdTree.make_ok h
  subst hd
  exact hE.nn hn hbig nn

theorem knn_of_exact (h : KdTree.make tag M N pts n o fuel = .ok T) (hE : ExactAt T q) (hn : 0 < n)
    {dist : Nat → α} (hd : (fun i => M.dist q (pts i)) = dist) (hbig : ∀ i < n, dist i < N.big)
    (k : Nat) (hk : 0 < k) (prior : List (Neighbor α)) :
    ∃ out, T.searchKnn q k prior = .ok out ∧ Spec.IsKnn n k dist out ∧
      out.map Neighbor.distance = Spec.smallest n k dist := by
  obtain ⟨_, rfl, rfl, rfl, rfl, _⟩ := KdTree.make_ok h
  subst hd
  obtain ⟨out, h1, h2⟩ := hE.knn hn hbig k hk prior
  exact ⟨out, h1, h2, h2.map_distance⟩

theorem radius_of_exact (h : KdTree.make tag M N pts n o fuel = .ok T) (hE : ExactAt T q)
    {dist : Nat → α} (hd : (fun i => M.dist q (pts i)) = dist) (sorter : StdSort (Neighbor α)) (r : α)
    (prior : List (Neighbor α)) (sort : Bool) :
    Spec.IsRadius n dist r (T.searchRadius sorter q r prior sort) ∧
      (sort = true → (T.searchRadius sorter q r prior sort).Pairwise
        fun a b => a.distance ≤ b.distance) := by
  obtain ⟨_, rfl, rfl, rfl, rfl, _⟩ := KdTree.make_ok h
  subst hd
  exact hE.radius sorter r prior sort

end Transfer

section Exact
variable {α : Type} [CommRing α] [LinearOrder α] [IsStrictOrderedRing α] {d : Nat} {N : Num α}
  {pts : Nat → Pt α d} {n : Nat} {o : BuildOpts α d} {fuel : Nat}

theorem l1_fun (q : Pt α d) (pts : Nat → Pt α d) :
    (fun i => (metricL1 α d).dist q (pts i)) = fun i => Spec.l1 q (pts i) :=
  funext fun _ => metricL1_dist _ _

theorem l2_fun (q : Pt α d) (pts : Nat → Pt α d) :
    (fun i => (metricL2Sq α d).dist q (pts i)) = fun i => Spec.l2Sq q (pts i) :=
  funext fun _ => metricL2Sq_dist _ _

/-! ## C15: user metrics -/

/-- C15 (Euclidean, nearest neighbor). -/
theorem c15_nn_euclidean {M : Metric α d} (hM : EuclideanAdditive M) {T : KdTree α d (Branch1 α d)}
    (h : KdTree.make (euclideanTag α d) M N pts n o fuel = .ok T) (hR : Representable N pts n o)
    (hn : 0 < n) (q : Pt α d) (hbig : ∀ i < n, M.dist q (pts i) < N.big) (nn : Neighbor α) :
    Spec.IsNN n (fun i => M.dist q (pts i)) (T.searchNn q nn) :=
  nn_of_exact h (exactAt_euclidean hM h hR hn q) hn rfl hbig nn

/-- C15 (Euclidean, k nearest neighbors). -/
theorem c15_knn_euclidean {M : Metric α d} (hM : EuclideanAdditive M) {T : KdTree α d (Branch1 α d)}
    (h : KdTree.make (euclideanTag α d) M N pts n o fuel = .ok T) (hR : Representable N pts n o)
    (hn : 0 < n) (q : Pt α d) (hbig : ∀ i < n, M.dist q (pts i) < N.big) (k : Nat) (hk : 0 < k)
    (prior : List (Neighbor α)) :
    ∃ out, T.searchKnn q k prior = .ok out ∧ Spec.IsKnn n k (fun i => M.dist q (pts i)) out ∧
      out.map Neighbor.distance = Spec.smallest n k (fun i => M.dist q (pts i)) :=
  knn_of_exact h (exactAt_euclidean hM h hR hn q) hn rfl hbig k hk prior

/-- C15 (Euclidean, radius). -/
theorem c15_radius_euclidean {M : Metric α d} (hM : EuclideanAdditive M)
    {T : KdTree α d (Branch1 α d)} (h : KdTree.make (euclideanTag α d) M N pts n o fuel = .ok T)
    (hR : Representable N pts n o) (hn : 0 < n) (q : Pt α d) (sorter : StdSort (Neighbor α)) (r : α)
    (prior : List (Neighbor α)) (sort : Bool) :
    Spec.IsRadius n (fun i => M.dist q (pts i)) r (T.searchRadius sorter q r prior sort) ∧
      (sort = true → (T.searchRadius sorter q r prior sort).Pairwise
        fun a b => a.distance ≤ b.distance) :=
  radius_of_exact h (exactAt_euclidean hM h hR hn q) rfl sorter r prior sort

/-- C15 (products of lines and circles, nearest neighbor). -/
theorem c15_nn_topological {M : Metric α d} (hM : TopologicalAdditive M)
    {T : KdTree α d (Branch2 α d)} (h : KdTree.make (topologicalTag α d) M N pts n o fuel = .ok T)
    (hR : Representable N pts n o) (hn : 0 < n) (q : Pt α d) (hc : CircleOk M.space pts n o q)
    (hbig : ∀ i < n, M.dist q (pts i) < N.big) (nn : Neighbor α) :
    Spec.IsNN n (fun i => M.dist q (pts i)) (T.searchNn q nn) :=
  nn_of_exact h (exactAt_topological hM h hR hn q hc) hn rfl hbig nn

/-- C15 (products of lines and circles, k nearest neighbors). -/
theorem c15_knn_topological {M : Metric α d} (hM : TopologicalAdditive M)
    {T : KdTree α d (Branch2 α d)} (h : KdTree.make (topologicalTag α d) M N pts n o fuel = .ok T)
    (hR : Representable N pts n o) (hn : 0 < n) (q : Pt α d) (hc : CircleOk M.space pts n o q)
    (hbig : ∀ i < n, M.dist q (pts i) < N.big) (k : Nat) (hk : 0 < k) (prior : List (Neighbor α)) :
    ∃ out, T.searchKnn q k prior = .ok out ∧ Spec.IsKnn n k (fun i => M.dist q (pts i)) out ∧
      out.map Neighbor.distance = Spec.smallest n k (fun i => M.dist q (pts i)) :=
  knn_of_exact h (exactAt_topological hM h hR hn q hc) hn rfl hbig k hk prior

/-- C15 (products of lines and circles, radius). -/
theorem c15_radius_topological {M : Metric α d} (hM : TopologicalAdditive M)
    {T : KdTree α d (Branch2 α d)} (h : KdTree.make (topologicalTag α d) M N pts n o fuel = .ok T)
    (hR : Representable N pts n o) (hn : 0 < n) (q : Pt α d) (hc : CircleOk M.space pts n o q)
    (sorter : StdSort (Neighbor α)) (r : α) (prior : List (Neighbor α)) (sort : Bool) :
    Spec.IsRadius n (fun i => M.dist q (pts i)) r (T.searchRadius sorter q r prior sort) ∧
      (sort = true → (T.searchRadius sorter q r prior sort).Pairwise
        fun a b => a.distance ≤ b.distance) :=
  radius_of_exact h (exactAt_topological hM h hR hn q hc) rfl sorter r prior sort

/-- The example metrics meet the contracts of C15. -/
theorem c15_lp_euclidean (p : Nat) : EuclideanAdditive (metricLpP α p d) := additive_lpP p

/-- The torus metric of the example meets the contract of C15. -/
theorem c15_torus_topological : TopologicalAdditive (metricT2Sq α d) := topological_t2

/-! ## C01: nearest neighbor -/

/-- C01 for `metric_l1`. -/
theorem c01_nn_l1 {T : KdTree α d (Branch1 α d)}
    (h : KdTree.make (euclideanTag α d) (metricL1 α d) N pts n o fuel = .ok T)
    (hR : Representable N pts n o) (hn : 0 < n) (q : Pt α d)
    (hbig : ∀ i < n, Spec.l1 q (pts i) < N.big) (nn : Neighbor α) :
    Spec.IsNN n (fun i => Spec.l1 q (pts i)) (T.searchNn q nn) :=
  nn_of_exact h (exactAt_euclidean additive_l1 h hR hn q) hn (l1_fun q pts) hbig nn

/-- C01 for `metric_l2_squared`. -/
theorem c01_nn_l2 {T : KdTree α d (Branch1 α d)}
    (h : KdTree.make (euclideanTag α d) (metricL2Sq α d) N pts n o fuel = .ok T)
    (hR : Representable N pts n o) (hn : 0 < n) (q : Pt α d)
    (hbig : ∀ i < n, Spec.l2Sq q (pts i) < N.big) (nn : Neighbor α) :
    Spec.IsNN n (fun i => Spec.l2Sq q (pts i)) (T.searchNn q nn) :=
  nn_of_exact h (exactAt_euclidean additive_l2Sq h hR hn q) hn (l2_fun q pts) hbig nn

/-! ## C02: k nearest neighbors into a vector -/

/-- C02 for `metric_l1`. -/
theorem c02_knn_l1 {T : KdTree α d (Branch1 α d)}
    (h : KdTree.make (euclideanTag α d) (metricL1 α d) N pts n o fuel = .ok T)
    (hR : Representable N pts n o) (hn : 0 < n) (q : Pt α d)
    (hbig : ∀ i < n, Spec.l1 q (pts i) < N.big) (k : Nat) (hk : 0 < k) (prior : List (Neighbor α)) :
    ∃ out, T.searchKnn q k prior = .ok out ∧ Spec.IsKnn n k (fun i => Spec.l1 q (pts i)) out ∧
      out.map Neighbor.distance = Spec.smallest n k (fun i => Spec.l1 q (pts i)) :=
  knn_of_exact h (exactAt_euclidean additive_l1 h hR hn q) hn (l1_fun q pts) hbig k hk prior

/-- C02 for `metric_l2_squared`. -/
theorem c02_knn_l2 {T : KdTree α d (Branch1 α d)}
    (h : KdTree.make (euclideanTag α d) (metricL2Sq α d) N pts n o fuel = .ok T)
    (hR : Representable N pts n o) (hn : 0 < n) (q : Pt α d)
    (hbig : ∀ i < n, Spec.l2Sq q (pts i) < N.big) (k : Nat) (hk : 0 < k)
    (prior : List (Neighbor α)) :
    ∃ out, T.searchKnn q k prior = .ok out ∧ Spec.IsKnn n k (fun i => Spec.l2Sq q (pts i)) out ∧
      out.map Neighbor.distance = Spec.smallest n k (fun i => Spec.l2Sq q (pts i)) :=
  knn_of_exact h (exactAt_euclidean additive_l2Sq h hR hn q) hn (l2_fun q pts) hbig k hk prior

/-! ## C04: radius search -/

/-- C04 for `metric_l1`. -/
theorem c04_radius_l1 {T : KdTree α d (Branch1 α d)}
    (h : KdTree.make (euclideanTag α d) (metricL1 α d) N pts n o fuel = .ok T)
    (hR : Representable N pts n o) (hn : 0 < n) (q : Pt α d) (sorter : StdSort (Neighbor α)) (r : α)
    (prior : List (Neighbor α)) (sort : Bool) :
    Spec.IsRadius n (fun i => Spec.l1 q (pts i)) r (T.searchRadius sorter q r prior sort) ∧
      (sort = true → (T.searchRadius sorter q r prior sort).Pairwise
        fun a b => a.distance ≤ b.distance) :=
  radius_of_exact h (exactAt_euclidean additive_l1 h hR hn q) (l1_fun q pts) sorter r prior sort

/-- C04 for `metric_l2_squared`. -/
theorem c04_radius_l2 {T : KdTree α d (Branch1 α d)}
    (h : KdTree.make (euclideanTag α d) (metricL2Sq α d) N pts n o fuel = .ok T)
    (hR : Representable N pts n o) (hn : 0 < n) (q : Pt α d) (sorter : StdSort (Neighbor α)) (r : α)
    (prior : List (Neighbor α)) (sort : Bool) :
    Spec.IsRadius n (fun i => Spec.l2Sq q (pts i)) r (T.searchRadius sorter q r prior sort) ∧
      (sort = true → (T.searchRadius sorter q r prior sort).Pairwise
        fun a b => a.distance ≤ b.distance) :=
  radius_of_exact h (exactAt_euclidean additive_l2Sq h hR hn q) (l2_fun q pts) sorter r prior sort

/-! ## C10: the circle -/

theorem so2_fun (q : Pt α 1) (pts : Nat → Pt α 1) :
    (fun i => (metricSO2 α).dist q (pts i)) = fun i => Spec.circle (q 0) (pts i 0) :=
  funext fun _ => s1Distance_eq _ _

/-- C10, nearest neighbor. -/
theorem c10_nn_so2 {pts : Nat → Pt α 1} {o : BuildOpts α 1} {T : KdTree α 1 (Branch2 α 1)}
    (h : KdTree.make (topologicalTag α 1) (metricSO2 α) N pts n o fuel = .ok T)
    (hR : Representable N pts n o) (hn : 0 < n) (q : Pt α 1)
    (hc : CircleOk (fun _ => .s1) pts n o q)
    (hbig : ∀ i < n, Spec.circle (q 0) (pts i 0) < N.big) (nn : Neighbor α) :
    Spec.IsNN n (fun i => Spec.circle (q 0) (pts i 0)) (T.searchNn q nn) :=
  nn_of_exact h (exactAt_topological topological_so2 h hR hn q hc) hn (so2_fun q pts) hbig nn

/-- C10, k nearest neighbors. -/
theorem c10_knn_so2 {pts : Nat → Pt α 1} {o : BuildOpts α 1} {T : KdTree α 1 (Branch2 α 1)}
    (h : KdTree.make (topologicalTag α 1) (metricSO2 α) N pts n o fuel = .ok T)
    (hR : Representable N pts n o) (hn : 0 < n) (q : Pt α 1)
    (hc : CircleOk (fun _ => .s1) pts n o q)
    (hbig : ∀ i < n, Spec.circle (q 0) (pts i 0) < N.big) (k : Nat) (hk : 0 < k)
    (prior : List (Neighbor α)) :
    ∃ out, T.searchKnn q k prior = .ok out ∧
      Spec.IsKnn n k (fun i => Spec.circle (q 0) (pts i 0)) out ∧
      out.map Neighbor.distance = Spec.smallest n k (fun i => Spec.circle (q 0) (pts i 0)) :=
  knn_of_exact h (exactAt_topological topological_so2 h hR hn q hc) hn (so2_fun q pts) hbig k hk prior

/-- C10, radius. -/
theorem c10_radius_so2 {pts : Nat → Pt α 1} {o : BuildOpts α 1} {T : KdTree α 1 (Branch2 α 1)}
    (h : KdTree.make (topologicalTag α 1) (metricSO2 α) N pts n o fuel = .ok T)
    (hR : Representable N pts n o) (hn : 0 < n) (q : Pt α 1)
    (hc : CircleOk (fun _ => .s1) pts n o q) (sorter : StdSort (Neighbor α)) (r : α)
    (prior : List (Neighbor α)) (sort : Bool) :
    Spec.IsRadius n (fun i => Spec.circle (q 0) (pts i 0)) r (T.searchRadius sorter q r prior sort) ∧
      (sort = true → (T.searchRadius sorter q r prior sort).Pairwise
        fun a b => a.distance ≤ b.distance) :=
  radius_of_exact h (exactAt_topological topological_so2 h hR hn q hc) (so2_fun q pts) sorter r prior
    sort

/-! ## C11: SE(2) -/

/-- Axes of SE(2): line, line, circle. -/
def se2Axes : Fin 3 → OneSpace := ![.r1, .r1, .s1]

theorem se2_space : (metricSE2Sq α).space = se2Axes := by
  funext i
  fin_cases i <;> rfl

theorem se2_fun (q : Pt α 3) (pts : Nat → Pt α 3) :
    (fun i => (metricSE2Sq α).dist q (pts i)) = fun i => Spec.se2Sq q (pts i) := by
  funext i
  simp only [metricSE2Sq, squaredR1Distance, squaredS1Distance, squared, s1Distance_eq, Spec.se2Sq,
    pow_two, zero_add]

/-- C11, nearest neighbor. -/
theorem c11_nn_se2 {pts : Nat → Pt α 3} {o : BuildOpts α 3} {T : KdTree α 3 (Branch2 α 3)}
    (h : KdTree.make (topologicalTag α 3) (metricSE2Sq α) N pts n o fuel = .ok T)
    (hR : Representable N pts n o) (hn : 0 < n) (q : Pt α 3) (hc : CircleOk se2Axes pts n o q)
    (hbig : ∀ i < n, Spec.se2Sq q (pts i) < N.big) (nn : Neighbor α) :
    Spec.IsNN n (fun i => Spec.se2Sq q (pts i)) (T.searchNn q nn) :=
  nn_of_exact h (exactAt_topological topological_se2 h hR hn q (se2_space (α := α) ▸ hc)) hn
    (se2_fun q pts) hbig nn

/-- C11, k nearest neighbors. -/
theorem c11_knn_se2 {pts : Nat → Pt α 3} {o : BuildOpts α 3} {T : KdTree α 3 (Branch2 α 3)}
    (h : KdTree.make (topologicalTag α 3) (metricSE2Sq α) N pts n o fuel = .ok T)
    (hR : Representable N pts n o) (hn : 0 < n) (q : Pt α 3) (hc : CircleOk se2Axes pts n o q)
    (hbig : ∀ i < n, Spec.se2Sq q (pts i) < N.big) (k : Nat) (hk : 0 < k)
    (prior : List (Neighbor α)) :
    ∃ out, T.searchKnn q k prior = .ok out ∧
      Spec.IsKnn n k (fun i => Spec.se2Sq q (pts i)) out ∧
      out.map Neighbor.distance = Spec.smallest n k (fun i => Spec.se2Sq q (pts i)) :=
  knn_of_exact h (exactAt_topological topological_se2 h hR hn q (se2_space (α := α) ▸ hc)) hn
    (se2_fun q pts) hbig k hk prior

/-- C11, radius. -/
theorem c11_radius_se2 {pts : Nat → Pt α 3} {o : BuildOpts α 3} {T : KdTree α 3 (Branch2 α 3)}
    (h : KdTree.make (topologicalTag α 3) (metricSE2Sq α) N pts n o fuel = .ok T)
    (hR : Representable N pts n o) (hn : 0 < n) (q : Pt α 3) (hc : CircleOk se2Axes pts n o q)
    (sorter : StdSort (Neighbor α)) (r : α) (prior : List (Neighbor α)) (sort : Bool) :
    Spec.IsRadius n (fun i => Spec.se2Sq q (pts i)) r (T.searchRadius sorter q r prior sort) ∧
      (sort = true → (T.searchRadius sorter q r prior sort).Pairwise
        fun a b => a.distance ≤ b.distance) :=
  radius_of_exact h (exactAt_topological topological_se2 h hR hn q (se2_space (α := α) ▸ hc))
    (se2_fun q pts) sorter r prior sort

/-! ## C14: custom visitors -/

/-- C14: the calls made to any visitor whose `max()` never grows (under an invariant `Inv` that the
calls maintain).  `calls` is the sequence of points presented. -/
theorem c14_visitor_contract {M : Metric α d} (hM : EuclideanAdditive M)
    {T : KdTree α d (Branch1 α d)} (h : KdTree.make (euclideanTag α d) M N pts n o fuel = .ok T)
    (hR : Representable N pts n o) (hn : 0 < n) (q : Pt α d) {σ : Type} (V : Visitor α σ)
    (Inv : σ → Prop) (s : σ) (hs : Inv s)
    (hV : ∀ s, ∀ i < n, Inv s → Inv (V.visit s i (M.dist q (pts i))) ∧
      V.max (V.visit s i (M.dist q (pts i))) ≤ V.max s) :
    ∃ calls : List Nat, calls.Nodup ∧ (∀ i ∈ calls, i < n) ∧
      T.searchNearest q V s = calls.foldl (fun s i => V.visit s i (M.dist q (pts i))) s ∧
      ∀ i < n, i ∉ calls → V.max (T.searchNearest q V s) < M.dist q (pts i) := by
  have hE := exactAt_euclidean hM h hR hn q
  obtain ⟨_, rfl, rfl, rfl, rfl, _⟩ := KdTree.make_ok h
  obtain ⟨vis, skip, hp, he, hk⟩ := hE σ V Inv s (fun s i hi hs => hV s i hi hs) hs
  have hmem := perm_range_mem hp
  have hnd := List.nodup_append.1 (hp.nodup_iff.2 List.nodup_range)
  refine ⟨vis, hnd.1, fun i hi => (hmem i).2 (Or.inl hi), he, ?_⟩
  intro i hi hiv
  rcases (hmem i).1 hi with h1 | h1
  · exact absurd h1 hiv
  · exact hk i h1

/-- C14, second part: if calls with a distance of at least `max()` leave the visitor unchanged, the
result is the one of presenting every point in some order. -/
theorem c14_visitor_all_points {M : Metric α d} (hM : EuclideanAdditive M)
    {T : KdTree α d (Branch1 α d)} (h : KdTree.make (euclideanTag α d) M N pts n o fuel = .ok T)
    (hR : Representable N pts n o) (hn : 0 < n) (q : Pt α d) {σ : Type} (V : Visitor α σ)
    (Inv : σ → Prop) (s : σ) (hs : Inv s)
    (hV : ∀ s, ∀ i < n, Inv s → Inv (V.visit s i (M.dist q (pts i))) ∧
      V.max (V.visit s i (M.dist q (pts i))) ≤ V.max s)
    (hidle : ∀ s, ∀ i < n, Inv s → V.max s ≤ M.dist q (pts i) → V.visit s i (M.dist q (pts i)) = s) :
    ∃ order : List Nat, order.Perm (List.range n) ∧
      T.searchNearest q V s = order.foldl (fun s i => V.visit s i (M.dist q (pts i))) s := by
  have hE := exactAt_euclidean hM h hR hn q
  obtain ⟨_, rfl, rfl, rfl, rfl, _⟩ := KdTree.make_ok h
  have hSh : Shrinks V (fun i => T.metric.dist q (T.pts i)) (· < T.n) Inv :=
    fun s i hi hs => hV s i hi hs
  obtain ⟨vis, skip, hp, he, hk⟩ := hE σ V Inv s hSh hs
  have hmem := perm_range_mem hp
  refine ⟨vis ++ skip, hp, ?_⟩
  have hI := (hSh.visitAll vis (fun i hi => (hmem i).2 (Or.inl hi)) s hs).1
  rw [he] at hk
  rw [List.foldl_append, he]
  unfold visitAll at hk hI ⊢
  generalize vis.foldl (fun s i => V.visit s i (T.metric.dist q (T.pts i))) s = s1 at hk hI ⊢
  have hlt : ∀ i ∈ skip, i < T.n := fun i hi => (hmem i).2 (Or.inr hi)
  clear he hp hmem
  induction skip with
  | nil => rfl
  | cons a l ih =>
    rw [List.foldl_cons, hidle s1 a (hlt a (by simp)) hI (hk a (by simp)).le]
    exact ih (fun i hi => hk i (by simp [hi])) (fun i hi => hlt i (by simp [hi]))

end Exact

section Approximate
variable {α : Type} [Field α] [LinearOrder α] [IsStrictOrderedRing α] {d : Nat} {N : Num α}
  {pts : Nat → Pt α d} {n : Nat} {o : BuildOpts α d} {fuel : Nat}

theorem additive_dist_nonneg {M : Metric α d} (hM : EuclideanAdditive M) (x y : Pt α d) :
    0 ≤ M.dist x y := by
  rw [hM.dist_eq]
  exact Finset.sum_nonneg fun j _ => hM.one_nonneg _

/-! ## C05: approximate nearest neighbor -/

/-- C05 for every additive metric. -/
theorem c05_nn_approx {M : Metric α d} (hM : EuclideanAdditive M) {T : KdTree α d (Branch1 α d)}
    (h : KdTree.make (euclideanTag α d) M N pts n o fuel = .ok T) (hR : Representable N pts n o)
    (hn : 0 < n) (q : Pt α d) (e : α) (he : 0 < e)
    (hbig : ∀ i < n, M.dist q (pts i) < N.big ∧ M.dist q (pts i) / e < N.big) (nn : Neighbor α) :
    ∃ i < n, (T.searchNnApprox q e nn).index = i ∧
      (T.searchNnApprox q e nn).distance * e = M.dist q (pts i) ∧
      (1 ≤ e → ∀ j < n, M.dist q (pts i) ≤ e * M.dist q (pts j)) ∧
      (e ≤ 1 → ∀ j < n, M.dist q (pts i) ≤ M.dist q (pts j)) := by
  have hE := exactAt_euclidean hM h hR hn q
  obtain ⟨_, rfl, rfl, rfl, rfl, _⟩ := KdTree.make_ok h
  refine hE.nnApprox hn e he (fun i _ => additive_dist_nonneg hM _ _) (fun i hi => (hbig i hi).1) ?_ nn
  intro i hi
  rw [mul_one_div]
  exact (hbig i hi).2

/-- C05 for `metric_l1` in terms of the Manhattan distance. -/
theorem c05_nn_approx_l1 {T : KdTree α d (Branch1 α d)}
    (h : KdTree.make (euclideanTag α d) (metricL1 α d) N pts n o fuel = .ok T)
    (hR : Representable N pts n o) (hn : 0 < n) (q : Pt α d) (e : α) (he : 0 < e)
    (hbig : ∀ i < n, Spec.l1 q (pts i) < N.big ∧ Spec.l1 q (pts i) / e < N.big) (nn : Neighbor α) :
    ∃ i < n, (T.searchNnApprox q e nn).index = i ∧
      (T.searchNnApprox q e nn).distance * e = Spec.l1 q (pts i) ∧
      (1 ≤ e → ∀ j < n, Spec.l1 q (pts i) ≤ e * Spec.l1 q (pts j)) ∧
      (e ≤ 1 → ∀ j < n, Spec.l1 q (pts i) ≤ Spec.l1 q (pts j)) := by
  simp only [← metricL1_dist] at hbig ⊢
  exact c05_nn_approx additive_l1 h hR hn q e he hbig nn

/-- C05 for `metric_l2_squared` in terms of the squared Euclidean distance. -/
theorem c05_nn_approx_l2 {T : KdTree α d (Branch1 α d)}
    (h : KdTree.make (euclideanTag α d) (metricL2Sq α d) N pts n o fuel = .ok T)
    (hR : Representable N pts n o) (hn : 0 < n) (q : Pt α d) (e : α) (he : 0 < e)
    (hbig : ∀ i < n, Spec.l2Sq q (pts i) < N.big ∧ Spec.l2Sq q (pts i) / e < N.big)
    (nn : Neighbor α) :
    ∃ i < n, (T.searchNnApprox q e nn).index = i ∧
      (T.searchNnApprox q e nn).distance * e = Spec.l2Sq q (pts i) ∧
      (1 ≤ e → ∀ j < n, Spec.l2Sq q (pts i) ≤ e * Spec.l2Sq q (pts j)) ∧
      (e ≤ 1 → ∀ j < n, Spec.l2Sq q (pts i) ≤ Spec.l2Sq q (pts j)) := by
  simp only [← metricL2Sq_dist] at hbig ⊢
  exact c05_nn_approx additive_l2Sq h hR hn q e he hbig nn

/-! ## C06: approximate k nearest neighbors -/

/-- C06 for every additive metric. -/
theorem c06_knn_approx {M : Metric α d} (hM : EuclideanAdditive M) {T : KdTree α d (Branch1 α d)}
    (h : KdTree.make (euclideanTag α d) M N pts n o fuel = .ok T) (hR : Representable N pts n o)
    (hn : 0 < n) (q : Pt α d) (e : α) (he : 1 ≤ e)
    (hbig : ∀ i < n, M.dist q (pts i) < N.big) (k : Nat) (hk : 0 < k) (prior : List (Neighbor α)) :
    ∃ out, T.searchKnnApprox q k e prior = .ok out ∧
      Spec.IsApproxKnn n k (fun i => M.dist q (pts i)) e out := by
  have hE := exactAt_euclidean hM h hR hn q
  obtain ⟨_, rfl, rfl, rfl, rfl, _⟩ := KdTree.make_ok h
  have hlen := resize_length (min k T.n) prior
  obtain ⟨L, h1, h2, h3, h4, h5, h6⟩ := hE.knnApproxRange e he
    (fun i _ => additive_dist_nonneg hM _ _) hbig (KdTree.resize (min k T.n) prior)
    (by rw [hlen]; omega) (by rw [hlen]; omega)
  refine ⟨L, h1, by rw [h2, hlen], h3, h4, h5, ?_⟩
  intro i hi hi'
  have hi'' : i < (Spec.smallest T.n (KdTree.resize (min k T.n) prior).length
      (fun i => T.metric.dist q (T.pts i))).length := by
    rw [Spec.length_smallest] at hi' ⊢
    rw [hlen]
    omega
  have h7 := h6 i hi hi''
  have h8 : (Spec.smallest T.n (KdTree.resize (min k T.n) prior).length
      (fun i => T.metric.dist q (T.pts i)))[i] =
      (Spec.smallest T.n k (fun i => T.metric.dist q (T.pts i)))[i] := by
    simp only [Spec.smallest, List.getElem_take]
  rw [h8] at h7
  have h9 := (h5 L[i] (List.getElem_mem hi)).2
  have he0 : 0 < e := lt_of_lt_of_le one_pos he
  rw [← h9, mul_comm e]
  exact mul_le_mul_of_nonneg_right h7 he0.le

/-- C06 for `metric_l1`. -/
theorem c06_knn_approx_l1 {T : KdTree α d (Branch1 α d)}
    (h : KdTree.make (euclideanTag α d) (metricL1 α d) N pts n o fuel = .ok T)
    (hR : Representable N pts n o) (hn : 0 < n) (q : Pt α d) (e : α) (he : 1 ≤ e)
    (hbig : ∀ i < n, Spec.l1 q (pts i) < N.big) (k : Nat) (hk : 0 < k) (prior : List (Neighbor α)) :
    ∃ out, T.searchKnnApprox q k e prior = .ok out ∧
      Spec.IsApproxKnn n k (fun i => Spec.l1 q (pts i)) e out := by
  simp only [← metricL1_dist] at hbig ⊢
  exact c06_knn_approx additive_l1 h hR hn q e he hbig k hk prior

/-- C06 for `metric_l2_squared`. -/
theorem c06_knn_approx_l2 {T : KdTree α d (Branch1 α d)}
    (h : KdTree.make (euclideanTag α d) (metricL2Sq α d) N pts n o fuel = .ok T)
    (hR : Representable N pts n o) (hn : 0 < n) (q : Pt α d) (e : α) (he : 1 ≤ e)
    (hbig : ∀ i < n, Spec.l2Sq q (pts i) < N.big) (k : Nat) (hk : 0 < k)
    (prior : List (Neighbor α)) :
    ∃ out, T.searchKnnApprox q k e prior = .ok out ∧
      Spec.IsApproxKnn n k (fun i => Spec.l2Sq q (pts i)) e out := by
  simp only [← metricL2Sq_dist] at hbig ⊢
  exact c06_knn_approx additive_l2Sq h hR hn q e he hbig k hk prior

/-! ## C07: approximate radius search -/

/-- C07 for every additive metric. -/
theorem c07_radius_approx {M : Metric α d} (hM : EuclideanAdditive M) {T : KdTree α d (Branch1 α d)}
    (h : KdTree.make (euclideanTag α d) M N pts n o fuel = .ok T) (hR : Representable N pts n o)
    (hn : 0 < n) (q : Pt α d) (sorter : StdSort (Neighbor α)) (r e : α) (he : 1 ≤ e)
    (prior : List (Neighbor α)) (sort : Bool) :
    Spec.IsApproxRadius n (fun i => M.dist q (pts i)) r e (T.searchRadiusApprox sorter q r e prior sort) ∧
      (sort = true → (T.searchRadiusApprox sorter q r e prior sort).Pairwise
        fun a b => a.distance ≤ b.distance) := by
  have hE := exactAt_euclidean hM h hR hn q
  obtain ⟨_, rfl, rfl, rfl, rfl, _⟩ := KdTree.make_ok h
  obtain ⟨h1, h2, h3, h4⟩ := hE.radiusApprox sorter r e he (fun i _ => additive_dist_nonneg hM _ _)
    prior sort
  have he0 : 0 < e := lt_of_lt_of_le one_pos he
  exact ⟨⟨h1, h2, fun i hi hr => h3 i hi ((lt_div_iff₀ he0).1 hr)⟩, h4⟩

/-- C07 for `metric_l1`. -/
theorem c07_radius_approx_l1 {T : KdTree α d (Branch1 α d)}
    (h : KdTree.make (euclideanTag α d) (metricL1 α d) N pts n o fuel = .ok T)
    (hR : Representable N pts n o) (hn : 0 < n) (q : Pt α d) (sorter : StdSort (Neighbor α)) (r e : α)
    (he : 1 ≤ e) (prior : List (Neighbor α)) (sort : Bool) :
    Spec.IsApproxRadius n (fun i => Spec.l1 q (pts i)) r e (T.searchRadiusApprox sorter q r e prior sort) ∧
      (sort = true → (T.searchRadiusApprox sorter q r e prior sort).Pairwise
        fun a b => a.distance ≤ b.distance) := by
  simp only [← metricL1_dist]
  exact c07_radius_approx additive_l1 h hR hn q sorter r e he prior sort

/-- C07 for `metric_l2_squared`. -/
theorem c07_radius_approx_l2 {T : KdTree α d (Branch1 α d)}
    (h : KdTree.make (euclideanTag α d) (metricL2Sq α d) N pts n o fuel = .ok T)
    (hR : Representable N pts n o) (hn : 0 < n) (q : Pt α d) (sorter : StdSort (Neighbor α)) (r e : α)
    (he : 1 ≤ e) (prior : List (Neighbor α)) (sort : Bool) :
    Spec.IsApproxRadius n (fun i => Spec.l2Sq q (pts i)) r e
      (T.searchRadiusApprox sorter q r e prior sort) ∧
      (sort = true → (T.searchRadiusApprox sorter q r e prior sort).Pairwise
        fun a b => a.distance ≤ b.distance) := by
  simp only [← metricL2Sq_dist]
  exact c07_radius_approx additive_l2Sq h hR hn q sorter r e he prior sort

end Approximate

/-! ## Concrete cases meeting the hypotheses -/

section Examples
open Ref

/-- A finished build over five integer points whose coordinates are representable, and a query whose
distances are below `max()`; also the answers. -/
example : ∃ T, KdTree.make (euclideanTag Int 2) (metricL1 Int 2) intNum pts5 5 (optsSliding Int 2) 10
      = .ok T ∧ T.searchNn ![5, 5] ⟨77, 0⟩ = ⟨3, 4⟩ := by
  obtain ⟨T, h1, h2⟩ := Outcome.exists_of_check (x := KdTree.make (euclideanTag Int 2) (metricL1 Int 2)
    intNum pts5 5 (optsSliding Int 2) 10) (p := fun T => T.searchNn ![5, 5] ⟨77, 0⟩ = ⟨3, 4⟩)
    (by decide +kernel)
  exact ⟨T, h1, by simpa using h2⟩

theorem representable_pts5 : Representable intNum pts5 5 (optsSliding Int 2) where
  num := by decide
  points := by unfold InRange; decide +kernel
  bounds := trivial
  mid h := by simp [optsSliding] at h

example : ∀ i < 5, Spec.l1 ![5, 5] (pts5 i) < intNum.big := by decide +kernel

/-- The metrics of the example program on a concrete tree. -/
example : ∃ T, KdTree.make (topologicalTag Rat 3) (metricSE2Sq Rat) ratNum poses4 4
      (optsMidpoint Rat 3) 10 = .ok T ∧ T.searchNn ![0, 1 / 4, 1] ⟨77, 0⟩ = ⟨0, 29 / 400⟩ := by
  obtain ⟨T, h1, h2⟩ := Outcome.exists_of_check (x := KdTree.make (topologicalTag Rat 3)
    (metricSE2Sq Rat) ratNum poses4 4 (optsMidpoint Rat 3) 10)
    (p := fun T => T.searchNn ![0, 1 / 4, 1] ⟨77, 0⟩ = ⟨0, 29 / 400⟩) (by decide +kernel)
  exact ⟨T, h1, by simpa using h2⟩

theorem midOk_rat : MidOk ratNum := by
  intro a b hab _ _
  simp only [ratNum]
  constructor <;> linarith

theorem representable_poses4 : Representable ratNum poses4 4 (optsMidpoint Rat 3) where
  num := by decide +kernel
  points := by unfold InRange; decide +kernel
  bounds := trivial
  mid _ := midOk_rat

example : CircleOk se2Axes poses4 4 (optsMidpoint Rat 3) ![0, 1 / 4, 1] where
  points := by decide +kernel
  query := by decide +kernel
  bounds := by
    intro _ mn mx h
    simp [optsMidpoint] at h

example : ∃ T, KdTree.make (topologicalTag Rat 1) (metricSO2 Rat) ratNum circle4 4
      (optsMedian Rat 1) 10 = .ok T ∧ T.searchKnn ![1] 2 [] = .ok [⟨1, 1 / 10⟩, ⟨0, 1 / 10⟩] := by
  obtain ⟨T, h1, h2⟩ := Outcome.exists_of_check (x := KdTree.make (topologicalTag Rat 1)
    (metricSO2 Rat) ratNum circle4 4 (optsMedian Rat 1) 10)
    (p := fun T => T.searchKnn ![1] 2 [] = .ok [⟨1, 1 / 10⟩, ⟨0, 1 / 10⟩]) (by decide +kernel)
  exact ⟨T, h1, by simpa using h2⟩

example : CircleOk (fun _ => .s1) circle4 4 (optsMedian Rat 1) ![1] where
  points := by decide +kernel
  query := by decide +kernel
  bounds := by
    intro h
    simp [optsMedian] at h

/-- A visitor as required by C14: counts the presented points within distance 6. -/
def countVisitor : Visitor Int Nat where
  visit s _ dst := if dst < 6 then s + 1 else s
  max _ := 6

example : ∃ T, KdTree.make (euclideanTag Int 2) (metricL1 Int 2) intNum pts5 5 (optsSliding Int 2) 10
      = .ok T ∧ T.searchNearest ![5, 5] countVisitor 0 = 3 := by
  obtain ⟨T, h1, h2⟩ := Outcome.exists_of_check (x := KdTree.make (euclideanTag Int 2) (metricL1 Int 2)
    intNum pts5 5 (optsSliding Int 2) 10) (p := fun T => T.searchNearest ![5, 5] countVisitor 0 = 3)
    (by decide +kernel)
  exact ⟨T, h1, by simpa using h2⟩

end Examples

end Pico.Props
