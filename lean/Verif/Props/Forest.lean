import Verif.Proof.ForestSearch
import Verif.Proof.Visitor
import Verif.Ref
import Mathlib.Tactic.NormNum
import Mathlib.Tactic.FieldSimp
import Mathlib.Analysis.Real.Sqrt

/-!
# C47, C61, C62, C63: the randomised kd forest

`Forest.make ... = .ok F` says that the construction finished (`c47_terminates`). Hypotheses on the arithmetic:
exact (an ordered ring), coordinates of the rotated points between `lowest()` and `max()` (`InRange`), distances
below `max()`. The rotations are arbitrary unit vectors. `Q i` is any conforming `std::priority_queue`, in the
search of tree `i`.
-/

set_option linter.unusedSectionVars false

namespace Pico.Props

open Pico Pico.Spec

/-! ## C62: the Householder reflection -/

section Rotation
variable {α : Type} [CommRing α] [LinearOrder α] [IsStrictOrderedRing α] {d : Nat}

/-- C62: `rotate_point` with a unit vector keeps the squared Euclidean distance. -/
theorem c62_isometry (r x y : Pt α d) (hr : ∑ j, r j ^ 2 = 1) :
    l2Sq (rotatePoint r x) (rotatePoint r y) = l2Sq x y := by
  unfold l2Sq
  simp only [pow_two] at hr ⊢
  simp only [rotatePoint_sub]
  exact sum_reflect r (fun j => x j - y j) hr

/-- C62: applied twice it is the identity. -/
theorem c62_involution (r x : Pt α d) (hr : ∑ j, r j ^ 2 = 1) : rotatePoint r (rotatePoint r x) = x := by
  funext i
  simp only [pow_two] at hr
  have h : ∑ j, r j * rotatePoint r x j = -∑ j, r j * x j := by
    simp only [rotatePoint_eq, mul_sub, Finset.sum_sub_distrib]
    have e : ∀ j, r j * ((∑ j, r j * x j) * 2 * r j) = (∑ j, r j * x j) * 2 * (r j * r j) := fun j => by ring
    simp only [e, ← Finset.mul_sum, hr]
    ring
  rw [rotatePoint_eq, h, rotatePoint_eq]
  ring

/-- C62: `random_normal` yields a unit vector unless all samples are zero. -/
theorem c62_normalize (x : Pt ℝ d) (hx : x ≠ 0) : ∑ j, normalize Real.sqrt x j ^ 2 = 1 := by
  have hpos : 0 < ∑ j, x j * x j := by
    obtain ⟨k, hk⟩ := Function.ne_iff.1 hx
    exact Finset.sum_pos' (fun j _ => mul_self_nonneg _) ⟨k, Finset.mem_univ _, mul_self_pos.2 hk⟩
  unfold normalize
  rw [loopSum_eq]
  have e : ∀ j, (x j * (1 / √(∑ j, x j * x j))) ^ 2 = (1 / √(∑ j, x j * x j)) ^ 2 * (x j * x j) :=
    fun j => by ring
  simp only [e, ← Finset.mul_sum]
  rw [div_pow, Real.sq_sqrt hpos.le, one_pow, one_div, inv_mul_cancel₀ hpos.ne']

end Rotation

/-- C62: every rotation that the code draws keeps distances (real arithmetic). -/
theorem c62_drawn {d : Nat} (g x y : Pt ℝ d) (hg : g ≠ 0) :
    l2Sq (rotatePoint (normalize Real.sqrt g) x) (rotatePoint (normalize Real.sqrt g) y) = l2Sq x y :=
  c62_isometry _ x y (c62_normalize g hg)

/-- A unit vector with rational coordinates; the hypotheses of C62 can be met. -/
def unit34 : Pt ℚ 2 := ![3 / 5, 4 / 5]

theorem unit34_unit : ∑ j, unit34 j ^ 2 = 1 := by decide +kernel

example : rotatePoint unit34 ![5, 10] = ![-41 / 5, -38 / 5] := by decide +kernel

/-! ## C47: the search -/

/-- C47 (any arithmetic, any visitor whose `max()` never grows): the search on each tree of the forest finishes;
it presents the points of distinct leaves, of at most `maxLeaves` of them, each with the distance in the rotated
space. -/
theorem c47_budget {α : Type} [LinearOrder α] [Zero α] [One α] [Add α] [Sub α] [Mul α] {d : Nat} {σ : Type}
    {M : Metric α d} {S : Std} {N : Num α} {pts : Nat → Pt α d} {n indexBits maxLeafSize fuel : Nat}
    {rotations : List (Pt α d)} {F : Forest α d} (hn : 0 < n)
    (hm : 1 ≤ maxLeafSize ∧ maxLeafSize < 2 ^ (indexBits - 1))
    (h : Forest.make M S N pts n indexBits maxLeafSize fuel rotations = .ok F)
    (Q : StdQueue α (Tree (Branch2 α d))) (x : Pt α d) (maxLeaves fuel' : Nat) (hf : n < fuel')
    {V : Visitor α σ} (hV : ∀ s i δ, V.max (V.visit s i δ) ≤ V.max s) (t : RotTree α d) (ht : t ∈ F.trees) (s : σ) :
    ∃ vs, prioritySearch Q M (rotatePoint t.rotation x) V
        (fun i => M.dist (rotatePoint t.rotation x) (t.pts i)) t.data.indices maxLeaves fuel' t.data.root s =
        .ok (visitAll V (fun i => M.dist (rotatePoint t.rotation x) (rotatePoint t.rotation (pts i))) vs s) ∧
      LeafVisits maxLeaves (ranges t.data.root) t.data.indices vs ∧ vs.Nodup ∧ ∀ i ∈ vs, i < n := by
  obtain ⟨-, -, hF⟩ := Forest.make_ok h
  obtain ⟨r, -, hr⟩ := forall₂_right hF ht
  have hs := Forest.makeTree_shape hm hn hr
  obtain ⟨hrot, hpts, -⟩ := Forest.makeTree_ok hr
  have := prioritySearch_budget (Q := Q) (M := M) (n := n) (x := x) (maxLeaves := maxLeaves) (fuel := fuel')
    (V := V) (Inv := fun _ => True) (t := t)
    (D := fun i => M.dist (rotatePoint t.rotation x) (rotatePoint t.rotation (pts i)))
    (fun i _ => by rw [hpts, hrot]) (fun s i _ _ => ⟨trivial, hV s i _⟩) hs.lt (hs.leaves.trans_lt hf) s trivial
  obtain ⟨vs, h1, h2, h3, -⟩ := this
  exact ⟨vs, h1, h2, hs.nodup h2, h3⟩

section Exact
variable {α : Type} [CommRing α] [LinearOrder α] [IsStrictOrderedRing α] {d : Nat}
  {S : Std} {N : Num α} {pts : Nat → Pt α d} {n indexBits maxLeafSize fuel : Nat}
  {rotations : List (Pt α d)} {F : Forest α d}

theorem l2Sq_nonneg (x y : Pt α d) : 0 ≤ l2Sq x y := Finset.sum_nonneg fun _ _ => sq_nonneg _

/-- The search over all trees with a visitor whose `max()` never grows. -/
theorem forest_search {σ : Type} (hn : 0 < n) (hm : 1 ≤ maxLeafSize ∧ maxLeafSize < 2 ^ (indexBits - 1))
    (hunit : ∀ r ∈ rotations, ∑ j, r j ^ 2 = 1) (hN : N.low ≤ N.big)
    (hp : ∀ r ∈ rotations, ∀ i < n, ∀ j, InRange N (rotatePoint r (pts i) j))
    (h : Forest.make (metricL2Sq α d) S N pts n indexBits maxLeafSize fuel rotations = .ok F)
    (Q : Nat → StdQueue α (Tree (Branch2 α d))) (x : Pt α d) (maxLeaves fuel' : Nat) (hf : n < fuel')
    {V : Visitor α σ} {Inv : σ → Prop} (hV : Shrinks V (fun i => l2Sq x (pts i)) (· < n) Inv) (s : σ)
    (hs : Inv s) :
    ∃ vss, F.searchNearest Q fuel' x maxLeaves V s = .ok (visitAll V (fun i => l2Sq x (pts i)) vss.flatten s) ∧
      List.Forall₂ (fun t vs => LeafVisits maxLeaves (ranges t.data.root) t.data.indices vs) F.trees vss ∧
      (∀ i ∈ vss.flatten, i < n) ∧
      ((∃ t ∈ F.trees, (ranges t.data.root).length ≤ maxLeaves) → ∀ i < n, i ∈ vss.flatten ∨
        V.max (visitAll V (fun i => l2Sq x (pts i)) vss.flatten s) ≤ l2Sq x (pts i)) ∧
      (F.trees ≠ [] → 0 < maxLeaves → 0 ≤ V.max s → vss.flatten ≠ []) := by
  obtain ⟨hM, -, hF⟩ := Forest.make_ok h
  obtain ⟨vss, h1, h2, h3, h4⟩ := Forest.search_all (Q := Q) (x := x) (maxLeaves := maxLeaves) (fuel := fuel') hV
    (F := F) hM (Out := fun t s vs => ((ranges t.data.root).length ≤ maxLeaves →
        ∀ i < n, i ∈ vs ∨ V.max (visitAll V (fun i => l2Sq x (pts i)) vs s) ≤ l2Sq x (pts i)) ∧
      (0 < maxLeaves → 0 ≤ V.max s → vs ≠ [])) (by
    intro t ht _
    obtain ⟨r, hr, hrt⟩ := forall₂_right hF ht
    have hsh := Forest.makeTree_shape hm hn hrt
    obtain ⟨hrot, hpts, hb⟩ := Forest.makeTree_ok hrt
    obtain ⟨-, -, box, hB⟩ := buildTree_built (by simp) hN (hp r hr) (by trivial) hn hb
    refine prioritySearch_exact additive_l2Sq (by simp [metricL2Sq, squared]) ?_ hV (box := box)
      (by rw [hpts]; exact hB) hsh.nonempty hsh.le hsh.perm (hsh.leaves.trans_lt hf)
    intro i hi
    rw [hpts, hrot, metricL2Sq_dist]
    exact c62_isometry r x (pts i) (hunit r hr)) s hs
  have hlen := h2.length_eq
  refine ⟨vss, h1, h2, h3, ?_, ?_⟩
  · rintro ⟨t, ht, hle⟩ i hi
    obtain ⟨k, hk, rfl⟩ := List.getElem_of_mem ht
    have hk' : k < vss.length := hlen ▸ hk
    rcases (h4 k hk hk').1 hle i hi with h5 | h5
    · exact Or.inl (List.mem_flatten.2 ⟨_, List.getElem_mem _, h5⟩)
    · refine Or.inr (le_trans ?_ h5)
      rw [← visitAll_append]
      have e : (vss.take k).flatten ++ vss[k] = (vss.take (k + 1)).flatten := by
        rw [List.take_succ_eq_append_getElem hk', List.flatten_append]
        simp
      rw [e]
      conv_lhs => rw [← List.take_append_drop (k + 1) vss, List.flatten_append, visitAll_append]
      have hsplit : vss.flatten = (vss.take (k + 1)).flatten ++ (vss.drop (k + 1)).flatten := by
        rw [← List.flatten_append, List.take_append_drop]
      refine (hV.visitAll _ ?_ _ (hV.visitAll _ ?_ s hs).1).2
      · exact fun i hi => h3 i (by rw [hsplit]; exact List.mem_append_right _ hi)
      · exact fun i hi => h3 i (by rw [hsplit]; exact List.mem_append_left _ hi)
  · intro hne hl h0
    obtain ⟨t, ht⟩ := List.exists_mem_of_ne_nil _ hne
    have hk : 0 < F.trees.length := List.length_pos_of_mem ht
    have hk' : 0 < vss.length := hlen ▸ hk
    have := (h4 0 hk hk').2 hl (by simpa [visitAll] using h0)
    obtain ⟨i, hi⟩ := List.exists_mem_of_ne_nil _ this
    exact List.ne_nil_of_mem (List.mem_flatten.2 ⟨_, List.getElem_mem _, hi⟩)

variable (hn : 0 < n) (hm : 1 ≤ maxLeafSize ∧ maxLeafSize < 2 ^ (indexBits - 1))
  (hunit : ∀ r ∈ rotations, ∑ j, r j ^ 2 = 1) (hN : N.low ≤ N.big)
  (hp : ∀ r ∈ rotations, ∀ i < n, ∀ j, InRange N (rotatePoint r (pts i) j))
  (h : Forest.make (metricL2Sq α d) S N pts n indexBits maxLeafSize fuel rotations = .ok F)
  (Q : Nat → StdQueue α (Tree (Branch2 α d))) (x : Pt α d) (maxLeaves fuel' : Nat) (hf : n < fuel')
  (hbig : ∀ i < n, l2Sq x (pts i) < N.big)
include hn hm hunit hN hp h hf hbig

/-- C47 (missing: an empty forest and the budget zero, see `c47_zero_false`): `search_nn` returns an actual point
with its true distance, the best one among the points of the visited leaves; at most `maxLeaves` leaves of each
tree are visited, none twice. -/
theorem c47_sound_partial (hne : rotations ≠ []) (hl : 0 < maxLeaves) (nn : Neighbor α) :
    ∃ r vss, F.searchNn Q fuel' x maxLeaves nn = .ok r ∧
      List.Forall₂ (fun t vs => LeafVisits maxLeaves (ranges t.data.root) t.data.indices vs) F.trees vss ∧
      r.index ∈ vss.flatten ∧ r.index < n ∧ r.distance = l2Sq x (pts r.index) ∧
      ∀ i ∈ vss.flatten, r.distance ≤ l2Sq x (pts i) := by
  obtain ⟨-, hnum, hF⟩ := Forest.make_ok h
  obtain ⟨vss, h1, h2, h3, -, h5⟩ := forest_search hn hm hunit hN hp h Q x maxLeaves fuel' hf
    (V := nnVisitor) (Inv := fun _ => True) (fun s i _ hs => shrinks_nn (fun i => l2Sq x (pts i)) s i trivial hs) (nnInit F.num nn) trivial
  have hb0 : 0 ≤ N.big := (l2Sq_nonneg x (pts 0)).trans (hbig 0 hn).le
  have hT : F.trees ≠ [] := by
    intro h0
    have := hF.length_eq
    rw [h0] at this
    exact hne (List.length_eq_zero_iff.1 this)
  have hne' := h5 hT hl (by simpa [nnVisitor, nnInit, hnum] using hb0)
  refine ⟨_, vss, h1, h2, ?_⟩
  rcases nn_visitAll (fun i => l2Sq x (pts i)) vss.flatten (nnInit F.num nn) with ⟨-, h7⟩ | ⟨i, hi, h7, -, h8⟩
  · obtain ⟨i, hi⟩ := List.exists_mem_of_ne_nil _ hne'
    have h8 := h7 i hi
    rw [show (nnInit F.num nn).distance = N.big by rw [← hnum]; rfl] at h8
    exact absurd (hbig i (h3 i hi)) (not_lt.2 h8)
  · rw [h7]
    exact ⟨hi, h3 i hi, rfl, h8⟩

/-- C47: with a budget of at least the number of leaves of some tree, `search_nn` returns the nearest neighbor. -/
theorem c47_exact (hl : ∃ t ∈ F.trees, (ranges t.data.root).length ≤ maxLeaves) (nn : Neighbor α) :
    ∃ r, F.searchNn Q fuel' x maxLeaves nn = .ok r ∧ IsNN n (fun i => l2Sq x (pts i)) r := by
  obtain ⟨-, hnum, hF⟩ := Forest.make_ok h
  obtain ⟨t, ht, hle⟩ := hl
  obtain ⟨r, hr, hrt⟩ := forall₂_right hF ht
  have hsh := Forest.makeTree_shape hm hn hrt
  have hpos : 0 < maxLeaves := by
    refine lt_of_lt_of_le (List.length_pos_iff.2 fun h0 => ?_) hle
    have := hsh.elems
    rw [Tree.elems_eq_ranges, h0, List.flatMap_nil] at this
    have := hsh.perm.length_eq
    simp_all
  obtain ⟨vss, h1, h2, h3, h4, -⟩ := forest_search hn hm hunit hN hp h Q x maxLeaves fuel' hf
    (V := nnVisitor) (Inv := fun _ => True) (fun s i _ hs => shrinks_nn (fun i => l2Sq x (pts i)) s i trivial hs) (nnInit F.num nn) trivial
  obtain ⟨r', vss', g1, g2, g3, g4, g5, g6⟩ := c47_sound_partial hn hm hunit hN hp h Q x maxLeaves fuel' hf hbig
    (List.ne_nil_of_mem hr) hpos nn
  refine ⟨r', g1, g4, g5, fun i hi => ?_⟩
  have e : visitAll nnVisitor (fun i => l2Sq x (pts i)) vss.flatten (nnInit F.num nn) = r' := by
    unfold Forest.searchNn at g1
    rw [h1] at g1
    injection g1
  rcases h4 ⟨t, ht, hle⟩ i hi with h5 | h5
  · rcases nn_visitAll (fun i => l2Sq x (pts i)) vss.flatten (nnInit F.num nn) with ⟨h6, h7⟩ | ⟨k, hk, h7, -, h8⟩
    · rw [← e, h6]
      exact h7 i h5
    · rw [← e, h7]
      exact h8 i h5
  · rw [e] at h5
    exact h5

/-- C47: in particular with a budget of at least the number of points. -/
theorem c47_exact_points (hne : rotations ≠ []) (hl : n ≤ maxLeaves) (nn : Neighbor α) :
    ∃ r, F.searchNn Q fuel' x maxLeaves nn = .ok r ∧ IsNN n (fun i => l2Sq x (pts i)) r := by
  obtain ⟨-, -, hF⟩ := Forest.make_ok h
  obtain ⟨r, hr⟩ := List.exists_mem_of_ne_nil _ hne
  obtain ⟨t, ht, hrt⟩ := forall₂_left hF hr
  exact c47_exact hn hm hunit hN hp h Q x maxLeaves fuel' hf hbig
    ⟨t, ht, (Forest.makeTree_shape hm hn hrt).leaves.trans hl⟩ nn

/-- C61 (missing: forests of several trees, see `c61_false`): on a forest of one tree, with a budget of at least
the number of leaves, any visitor sees every point at most once, and all points but those at least as far away as
the final `max()`. -/
theorem c61_partial {σ : Type} {r : Pt α d} (h1 : rotations = [r])
    (hl : ∀ t ∈ F.trees, (ranges t.data.root).length ≤ maxLeaves) {V : Visitor α σ} {Inv : σ → Prop}
    (hV : Shrinks V (fun i => l2Sq x (pts i)) (· < n) Inv) (s : σ) (hs : Inv s) :
    ∃ t, F.searchNearest Q fuel' x maxLeaves V s = .ok t ∧ Final n (fun i => l2Sq x (pts i)) V s t := by
  obtain ⟨-, -, hF⟩ := Forest.make_ok h
  obtain ⟨vss, g1, g2, g3, g4, -⟩ := forest_search hn hm hunit hN hp h Q x maxLeaves fuel' hf hV s hs
  subst h1
  obtain ⟨t, ts, hrt, hts, hT⟩ := List.forall₂_cons_left_iff.1 hF
  rw [List.forall₂_nil_left_iff] at hts
  subst hts
  rw [hT] at g2 g4 hl
  obtain ⟨vs, vss', hv, hvs, rfl⟩ := List.forall₂_cons_left_iff.1 g2
  rw [List.forall₂_nil_left_iff] at hvs
  subst hvs
  have hsh := Forest.makeTree_shape hm hn hrt
  have hnd := hsh.nodup hv
  simp only [List.flatten_cons, List.flatten_nil, List.append_nil] at g1 g3 g4
  refine ⟨_, g1, vs, (List.range n).filter fun i => decide (i ∉ vs), ?_, rfl, ?_⟩
  · refine (List.perm_ext_iff_of_nodup ?_ List.nodup_range).2 fun i => ?_
    · refine List.nodup_append.2 ⟨hnd, List.nodup_range.filter _, ?_⟩
      rintro a ha b hb rfl
      simp only [List.mem_filter, decide_eq_true_eq] at hb
      exact hb.2 ha
    · simp only [List.mem_append, List.mem_filter, List.mem_range, decide_eq_true_eq]
      have := g3 i
      tauto
  · intro i hi
    simp only [List.mem_filter, List.mem_range, decide_eq_true_eq] at hi
    exact (g4 ⟨t, by simp, hl t (by simp)⟩ i hi.1).resolve_left hi.2

/-- C61 (what is left for several trees): a visitor sees every point at most once for each tree. -/
theorem c61_count_partial {σ : Type} {V : Visitor α σ} {Inv : σ → Prop}
    (hV : Shrinks V (fun i => l2Sq x (pts i)) (· < n) Inv) (s : σ) (hs : Inv s) :
    ∃ vs, F.searchNearest Q fuel' x maxLeaves V s = .ok (visitAll V (fun i => l2Sq x (pts i)) vs s) ∧
      ∀ i, vs.count i ≤ rotations.length := by
  obtain ⟨-, -, hF⟩ := Forest.make_ok h
  obtain ⟨vss, g1, g2, -⟩ := forest_search hn hm hunit hN hp h Q x maxLeaves fuel' hf hV s hs
  refine ⟨_, g1, fun i => ?_⟩
  have key : ∀ (ts : List (RotTree α d)) (vss : List (List Nat)), (∀ t ∈ ts, TreeShape n t) →
      List.Forall₂ (fun t vs => LeafVisits maxLeaves (ranges t.data.root) t.data.indices vs) ts vss →
      vss.flatten.count i ≤ ts.length := by
    intro ts vss hts hfa
    induction hfa with
    | nil => simp
    | @cons t vs ts vss hv _ ih =>
      have h1 := List.nodup_iff_count_le_one.1 ((hts t (by simp)).nodup hv) i
      have h2 := ih fun t ht => hts t (by simp [ht])
      rw [List.flatten_cons, List.count_append, List.length_cons]
      omega
  rw [hF.length_eq]
  refine key _ _ (fun t ht => ?_) g2
  obtain ⟨r, -, hrt⟩ := forall₂_right hF ht
  exact Forest.makeTree_shape hm hn hrt

/-- C61 (partial as above): the visitor of `search_knn` then holds the `k` nearest neighbors. -/
theorem c61_knn_partial {r : Pt α d} (h1 : rotations = [r])
    (hl : ∀ t ∈ F.trees, (ranges t.data.root).length ≤ maxLeaves) (buf : List (Neighbor α))
    (hb : 0 < buf.length) :
    ∃ s t, knnInit N buf = .ok s ∧ F.searchNearest Q fuel' x maxLeaves (knnVisitor N) s = .ok t ∧
      IsKnn n buf.length (fun i => l2Sq x (pts i)) (t.buf.take (min buf.length n)) := by
  obtain ⟨s, Inv, hs, hI, hV⟩ := knnInit_shrinks (dist := fun i => l2Sq x (pts i)) hbig hb
  obtain ⟨t, ht, hfin⟩ := c61_partial hn hm hunit hN hp h Q x maxLeaves fuel' hf hbig h1 hl hV s hI
  obtain ⟨L, h2, h3⟩ := hfin.knn hs hbig hb
  refine ⟨s, t, hs, ht, ?_⟩
  rw [h2, ← h3.length, List.take_left']
  · exact h3
  · rfl

end Exact

section Terminates
variable {α : Type} [LinearOrder α] [Zero α] [One α] [Add α] [Sub α] [Mul α] {d : Nat}
  {M : Metric α d} {S : Std} {N : Num α} {pts : Nat → Pt α d} {n indexBits maxLeafSize : Nat}

/-- C47: the construction finishes (`SplitSafe`: see C22). -/
theorem c47_terminates {a b : α} (hS : SplitSafe N a b) (hd : 0 < d) (hn : 0 < n)
    (hm : 1 ≤ maxLeafSize ∧ maxLeafSize < 2 ^ (indexBits - 1)) (hN : N.low ≤ b ∧ a ≤ N.big)
    (rotations : List (Pt α d))
    (hp : ∀ r ∈ rotations, ∀ i < n, ∀ j, a ≤ rotatePoint r (pts i) j ∧ rotatePoint r (pts i) j ≤ b) :
    ∃ fuel F, ∀ f ≥ fuel, Forest.make M S N pts n indexBits maxLeafSize f rotations = .ok F := by
  have one : ∀ r ∈ rotations, ∃ fuel t, ∀ f ≥ fuel, Forest.makeTree S N pts n indexBits maxLeafSize f r = .ok t := by
    intro r hr
    obtain ⟨t, s, bx, hc⟩ := created_exists
      (C := (⟨fun i => rotatePoint r (pts i), S, N, .sliding, .maxLeafSize maxLeafSize, indexBits,
        setBranchTopological⟩ : BuildCfg α d (Branch2 α d))) hS hd (by simp) (stopOk_of (by
        intro m hm'
        injection hm' with hm'
        subst hm'
        exact hm)) n 0 0 (List.range n) (boxFromBounds N (fun i => rotatePoint r (pts i)) n .fromSpace) (by simp)
      (boxFromBounds_within hn hN (hp r hr) (by simp)) (fun i hi => hp r hr i (List.mem_range.1 hi))
    obtain ⟨fuel, hf⟩ := buildTree_of_created hc
    refine ⟨fuel, ⟨r, fun i => rotatePoint r (pts i), ⟨s, boxFromBounds N (fun i => rotatePoint r (pts i)) n .fromSpace, t⟩⟩, fun f hge => ?_⟩
    unfold Forest.makeTree Forest.opts
    dsimp only
    rw [hf f hge]
    rfl
  have all : ∀ ts : List (RotTree α d), ∃ fuel out, ∀ f ≥ fuel,
      Outcome.foldl (fun trees r => (Forest.makeTree S N pts n indexBits maxLeafSize f r).bind fun t =>
        .ok (trees ++ [t])) ts rotations = .ok out := by
    clear hp
    induction rotations with
    | nil => exact fun ts => ⟨0, ts, fun _ _ => rfl⟩
    | cons r rs ih =>
      intro ts
      obtain ⟨f1, t, h1⟩ := one r (by simp)
      obtain ⟨f2, out, h2⟩ := ih (fun r hr => one r (by simp [hr])) (ts ++ [t])
      refine ⟨max f1 f2, out, fun f hf => ?_⟩
      rw [Outcome.foldl, h1 f (le_trans (le_max_left _ _) hf)]
      exact h2 f (le_trans (le_max_right _ _) hf)
  obtain ⟨fuel, out, hf⟩ := all []
  refine ⟨fuel, ⟨M, N, out⟩, fun f hge => ?_⟩
  unfold Forest.make
  rw [hf f hge]
  rfl

end Terminates

section Zero
variable {α : Type} [CommRing α] [LinearOrder α] [IsStrictOrderedRing α] {d : Nat}

/-- C47 fails for the budget zero and for the empty forest: the caller's index is left as it was and the
distance is `max()`, whatever the forest. -/
theorem c47_zero (F : Forest α d) (Q : Nat → StdQueue α (Tree (Branch2 α d))) (fuel : Nat) (x : Pt α d) (maxLeaves : Nat)
    (h : maxLeaves = 0 ∨ F.trees = []) (nn : Neighbor α) :
    F.searchNn Q (fuel + 1) x maxLeaves nn = .ok ⟨nn.index, F.num.big⟩ := by
  have key : ∀ (ts : List (RotTree α d × Nat)) (s : Neighbor α), (maxLeaves = 0 ∨ ts = []) →
      Outcome.foldl (fun s t => prioritySearch (Q t.2) F.metric (rotatePoint t.1.rotation x) nnVisitor
        (fun i => F.metric.dist (rotatePoint t.1.rotation x) (t.1.pts i)) t.1.data.indices maxLeaves (fuel + 1)
        t.1.data.root s) s ts = .ok s := by
    intro ts
    induction ts with
    | nil => exact fun _ _ => rfl
    | cons t ts ih =>
      intro s h
      have h : maxLeaves = 0 := by simpa using h
      rw [Outcome.foldl, prioritySearch, priorityLoop]
      obtain ⟨y, r, hy, -⟩ := (Q t.2).top (0, t.1.data.root) []
      rw [hy]
      dsimp only
      rw [if_pos (Or.inl (by omega))]
      exact ih s (Or.inl h)
  exact key F.trees.zipIdx _ (h.imp_right fun h => by rw [h]; rfl)

/-- C47: the claim that `search_nn` returns an actual point with its distance is false for those. -/
theorem c47_zero_false (F : Forest α d) (Q : Nat → StdQueue α (Tree (Branch2 α d))) (fuel : Nat) (x : Pt α d)
    (maxLeaves : Nat) (h : maxLeaves = 0 ∨ F.trees = []) (nn : Neighbor α) {n : Nat} {pts : Nat → Pt α d}
    (hbig : ∀ i < n, l2Sq x (pts i) < F.num.big) :
    ∃ r, F.searchNn Q (fuel + 1) x maxLeaves nn = .ok r ∧ ¬ (r.index < n ∧ r.distance = l2Sq x (pts r.index)) :=
  ⟨_, c47_zero F Q fuel x maxLeaves h nn, fun hr => (hbig _ hr.1).ne' hr.2⟩

end Zero

/-! ## Concrete cases -/

/-- A conforming priority queue: a list that is searched for its first smallest element. -/
def popMin {α τ : Type} [LinearOrder α] : List (α × τ) → Option ((α × τ) × List (α × τ))
  | [] => none
  | x :: l =>
    match popMin l with
    | none => some (x, [])
    | some (y, r) => if x.1 ≤ y.1 then some (x, y :: r) else some (y, x :: r)

theorem popMin_top {α τ : Type} [LinearOrder α] (x : α × τ) (l : List (α × τ)) :
    ∃ y r, popMin (x :: l) = some (y, r) ∧ (y :: r).Perm (x :: l) ∧ ∀ z ∈ r, y.1 ≤ z.1 := by
  induction l generalizing x with
  | nil => exact ⟨x, [], rfl, List.Perm.refl _, by simp⟩
  | cons a l ih =>
    obtain ⟨y, r, h1, h2, h3⟩ := ih a
    rw [popMin, h1]
    dsimp only
    split_ifs with h
    · refine ⟨x, y :: r, rfl, h2.cons x, fun z hz => ?_⟩
      rcases List.mem_cons.1 hz with rfl | hz
      exacts [h, h.trans (h3 z hz)]
    · refine ⟨y, x :: r, rfl, (List.Perm.swap _ _ _).trans (h2.cons x), fun z hz => ?_⟩
      rcases List.mem_cons.1 hz with rfl | hz
      exacts [(not_le.1 h).le, h3 z hz]

def refQueue (α τ : Type) [LinearOrder α] : StdQueue α τ := ⟨popMin, rfl, popMin_top⟩

/-- Five points of the plane with rational coordinates. -/
def plane5 : Nat → Pt ℚ 2
  | 0 => ![0, 0]
  | 1 => ![4, 1]
  | 2 => ![3, 7]
  | 3 => ![3, 7]
  | _ => ![9, 2]

/-- A forest of two trees, leaves of at most one point. -/
def forest5 (M : Metric ℚ 2) : Outcome (Forest ℚ 2) :=
  Forest.make M Ref.std Ref.ratNum plane5 5 32 1 20 [unit34, ![0, 1]]

/-- The hypotheses of C47 can be met. For the query `(2, 0)` the budget of one leaf for each tree gives point 1 at
squared distance 5, the budget of five leaves the nearest neighbor, point 0 at squared distance 4. -/
example : ∃ F, forest5 (metricL2Sq ℚ 2) = .ok F ∧
    F.searchNn (fun _ => refQueue ℚ _) 6 ![2, 0] 1 ⟨9, 0⟩ = .ok ⟨1, 5⟩ ∧
    F.searchNn (fun _ => refQueue ℚ _) 6 ![2, 0] 5 ⟨9, 0⟩ = .ok ⟨0, 4⟩ := by
  have h : (forest5 (metricL2Sq ℚ 2)).check (fun F =>
      (F.searchNn (fun _ => refQueue ℚ _) 6 ![2, 0] 1 ⟨9, 0⟩).check (fun r => decide (r = ⟨1, 5⟩)) &&
      (F.searchNn (fun _ => refQueue ℚ _) 6 ![2, 0] 5 ⟨9, 0⟩).check fun r => decide (r = ⟨0, 4⟩)) = true := by
    decide +kernel
  obtain ⟨F, h1, h2⟩ := Outcome.exists_of_check h
  rw [Bool.and_eq_true] at h2
  obtain ⟨r, h3, h4⟩ := Outcome.exists_of_check h2.1
  obtain ⟨r', h5, h6⟩ := Outcome.exists_of_check h2.2
  rw [decide_eq_true_eq] at h4 h6
  subst h4 h6
  exact ⟨F, h1, h3, h5⟩

/-- The other hypotheses of C47 for this forest. -/
example : (∀ r ∈ [unit34, ![0, 1]], ∑ j, r j ^ 2 = 1) ∧
    (∀ r ∈ [unit34, ![0, 1]], ∀ i < 5, ∀ j, InRange Ref.ratNum (rotatePoint r (plane5 i) j)) ∧
    ∀ i < 5, l2Sq ![2, 0] (plane5 i) < Ref.ratNum.big := by
  unfold InRange
  decide +kernel

/-- C61: `kd_forest::search_nearest` with the visitor of `search_knn` on two trees: the two nearest neighbors of
`(2, 0)` are point 0 and point 1, but point 0 is listed twice. -/
theorem c61_false :
    ∃ F s t, forest5 (metricL2Sq ℚ 2) = .ok F ∧ knnInit F.num [⟨0, 0⟩, ⟨0, 0⟩] = .ok s ∧
      F.searchNearest (fun _ => refQueue ℚ _) 6 ![2, 0] 5 (knnVisitor F.num) s = .ok t ∧ t.buf = [⟨0, 4⟩, ⟨0, 4⟩] ∧
      ¬ IsKnn 5 2 (fun i => l2Sq ![2, 0] (plane5 i)) t.buf := by
  have h : (forest5 (metricL2Sq ℚ 2)).check (fun F => (knnInit F.num [⟨0, 0⟩, ⟨0, 0⟩]).check fun s =>
      (F.searchNearest (fun _ => refQueue ℚ _) 6 ![2, 0] 5 (knnVisitor F.num) s).check fun t =>
        decide (t.buf = [⟨0, 4⟩, ⟨0, 4⟩])) = true := by
    decide +kernel
  obtain ⟨F, h1, h2⟩ := Outcome.exists_of_check h
  obtain ⟨s, h3, h4⟩ := Outcome.exists_of_check h2
  obtain ⟨t, h5, h6⟩ := Outcome.exists_of_check h4
  rw [decide_eq_true_eq] at h6
  refine ⟨F, s, t, h1, h3, h5, h6, fun hk => ?_⟩
  obtain ⟨rest, hr, -⟩ := hk.rest
  have hnd := (hr.map Neighbor.index).nodup_iff.2 (by decide +kernel)
  rw [h6] at hnd
  simp at hnd

/-- C63: the forest can be instantiated with `metric_l1`, but the reflection does not keep that distance: for the
query `(6, 2)` point 1 is reported at distance 13/5, its distance is 3. -/
theorem c63_false :
    ∃ F r, forest5 (metricL1 ℚ 2) = .ok F ∧ F.searchNn (fun _ => refQueue ℚ _) 6 ![6, 2] 5 ⟨9, 0⟩ = .ok r ∧
      r.index = 1 ∧ r.distance ≠ l1 ![6, 2] (plane5 r.index) := by
  have h : (forest5 (metricL1 ℚ 2)).check (fun F =>
      (F.searchNn (fun _ => refQueue ℚ _) 6 ![6, 2] 5 ⟨9, 0⟩).check fun r => decide (r = ⟨1, 13 / 5⟩)) = true := by
    decide +kernel
  obtain ⟨F, h1, h2⟩ := Outcome.exists_of_check h
  obtain ⟨r, h3, h4⟩ := Outcome.exists_of_check h2
  rw [decide_eq_true_eq] at h4
  subst h4
  exact ⟨F, _, h1, h3, rfl, by decide +kernel⟩

/-- C63 (only the distance in the rotated space is true): with any metric and one tree the reported distance is the
one between the rotated points, whenever the visitor was presented a point. -/
theorem c63_partial {α : Type} [LinearOrder α] [Zero α] [One α] [Add α] [Sub α] [Mul α] {d : Nat}
    {M : Metric α d} {S : Std} {N : Num α} {pts : Nat → Pt α d} {n indexBits maxLeafSize fuel : Nat}
    {r : Pt α d} {F : Forest α d} (hn : 0 < n) (hm : 1 ≤ maxLeafSize ∧ maxLeafSize < 2 ^ (indexBits - 1))
    (h : Forest.make M S N pts n indexBits maxLeafSize fuel [r] = .ok F)
    (Q : Nat → StdQueue α (Tree (Branch2 α d))) (x : Pt α d) (maxLeaves fuel' : Nat) (hf : n < fuel') (nn : Neighbor α) :
    ∃ res, F.searchNn Q fuel' x maxLeaves nn = .ok res ∧
      (res = ⟨nn.index, N.big⟩ ∨
        res.index < n ∧ res.distance = M.dist (rotatePoint r x) (rotatePoint r (pts res.index))) := by
  obtain ⟨hM, hnum, hF⟩ := Forest.make_ok h
  obtain ⟨t, ts, hrt, hts, hT⟩ := List.forall₂_cons_left_iff.1 hF
  rw [List.forall₂_nil_left_iff] at hts
  subst hts
  obtain ⟨hrot, -, -⟩ := Forest.makeTree_ok hrt
  obtain ⟨vs, h1, -, -, h2⟩ := c47_budget hn hm h (Q 0) x maxLeaves fuel' hf (V := nnVisitor)
    (fun s i δ => (shrinks_nn (fun _ => δ) s i trivial trivial).2) t (by rw [hT]; simp) (nnInit F.num nn)
  rw [hrot] at h1
  refine ⟨visitAll nnVisitor (fun i => M.dist (rotatePoint r x) (rotatePoint r (pts i))) vs (nnInit F.num nn), ?_, ?_⟩
  · unfold Forest.searchNn Forest.searchNearest
    rw [hT, hM, List.zipIdx_cons, Outcome.foldl, hrot]
    dsimp only
    rw [h1]
    rfl
  · rcases nn_visitAll (fun i => M.dist (rotatePoint r x) (rotatePoint r (pts i))) vs (nnInit F.num nn) with
      ⟨h3, -⟩ | ⟨i, hi, h3, -⟩
    · rw [h3, hnum]
      exact Or.inl rfl
    · rw [h3]
      exact Or.inr ⟨h2 i hi, rfl⟩

end Pico.Props
