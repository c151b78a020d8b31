import Verif.Proof.Looked
import Verif.Props.Nearest
import Verif.Ref

/-!
# C100, C101: how many points a search looks at

`T.looked q V s` lists the points that the search with the visitor `V` is shown, in order: the state of the same search
with a visitor that also writes them down (`c100_answer`).
-/

namespace Pico.Props

open Pico

section Looked
variable {α : Type} [Field α] [LinearOrder α] [IsStrictOrderedRing α] {d : Nat} {β : Type}
  {T : KdTree α d β} {q : Pt α d} {term : Fin d → Nat → α}

omit [IsStrictOrderedRing α] in
/-- Writing down what is looked at does not change the answer, and the answer is what the visitor makes of the points
on the list, whatever the others are. -/
theorem c100_answer {σ : Type} (T : KdTree α d β) (q : Pt α d) (V : Visitor α σ) (s : σ) :
    (T.searchNearest q (recording V) (s, [])).1 = T.searchNearest q V s ∧
    (T.looked q V s).foldl (fun s i => V.visit s i (T.metric.dist q (T.pts i))) s = T.searchNearest q V s ∧
    (T.looked q V s).Subperm (T.data.root.elems T.data.indices) := by
  have h0 := T.searchNearest_recording q V s
  obtain ⟨vis, skip, hp, he⟩ := searchNearest_struct T.tag.splitDim (T.tag.pick T.metric q) (recording V)
    (fun i => T.metric.dist q (T.pts i)) T.data.indices T.data.root 0 (fun _ => 0, (s, []))
  have h1 : T.searchNearest q (recording V) (s, []) =
      (visitAll V (fun i => T.metric.dist q (T.pts i)) vis s, vis) := by
    unfold KdTree.searchNearest searchNearestRoot
    rw [he, visitAll_recording, List.nil_append]
  have h2 : T.looked q V s = vis := by rw [KdTree.looked, h1]
  refine ⟨h0, ?_, ?_⟩
  · rw [h2, ← h0, h1]
    rfl
  · rw [h2]
    exact (List.sublist_append_left vis skip).subperm.trans hp.subperm

/-- All comparisons of C100 for a tree and a query, `dist` are the distances of the points. -/
structure Frugal (T : KdTree α d β) (q : Pt α d) : Prop where
  /-- No point is looked at twice. -/
  once : ∀ {σ : Type} (V : Visitor α σ) (s : σ), (T.looked q V s).Nodup ∧ ∀ i ∈ T.looked q V s, i < T.n
  /-- The approximate nearest neighbor search. -/
  nn : ∀ (e : α) (nn nn' : Neighbor α), 1 ≤ e →
    (T.looked q (approxNnVisitor e) (nnInit T.num nn)).Sublist (T.looked q nnVisitor (nnInit T.num nn'))
  /-- The nearest neighbor compared with several. -/
  nn_knn : (∀ i < T.n, T.metric.dist q (T.pts i) < T.num.big) →
    ∀ (nn : Neighbor α) (buf : List (Neighbor α)) (s : KnnState α), knnInit T.num buf = .ok s →
    (T.looked q nnVisitor (nnInit T.num nn)).Sublist (T.looked q (knnVisitor T.num) s)
  /-- Fewer neighbors. -/
  knn : (∀ i < T.n, T.metric.dist q (T.pts i) < T.num.big) →
    ∀ (buf buf' : List (Neighbor α)) (s s' : KnnState α), buf.length ≤ buf'.length →
    knnInit T.num buf = .ok s → knnInit T.num buf' = .ok s' →
    (T.looked q (knnVisitor T.num) s).Sublist (T.looked q (knnVisitor T.num) s')
  /-- The approximate search for as many or fewer neighbors. -/
  knnApprox : (∀ i < T.n, T.metric.dist q (T.pts i) < T.num.big) →
    ∀ (e : α) (buf buf' : List (Neighbor α)) (s s' : KnnState α), 1 ≤ e → buf.length ≤ buf'.length →
    knnInit T.num buf = .ok s → knnInit T.num buf' = .ok s' →
    (T.looked q (approxKnnVisitor T.num e) s).Sublist (T.looked q (knnVisitor T.num) s')
  /-- A smaller radius. -/
  radius : ∀ (r r' : α) (out out' : List (Neighbor α)), r ≤ r' →
    (T.looked q (radiusVisitor r) out).Sublist (T.looked q (radiusVisitor r') out')
  /-- The approximate radius search, and a larger ratio. -/
  radiusApprox : ∀ (r e e' : α) (out out' : List (Neighbor α)), 0 ≤ r → 1 ≤ e' → e' ≤ e →
    (T.looked q (approxRadiusVisitor e r) out).Sublist (T.looked q (approxRadiusVisitor e' r) out') ∧
    (T.looked q (approxRadiusVisitor e r) out).Sublist (T.looked q (radiusVisitor r) out')
  /-- No search finds the nearest neighbor without looking at the cells that are nearer. -/
  ball : ∀ (r : α) (out : List (Neighbor α)) (nn : Neighbor α), (∀ i < T.n, r ≤ T.metric.dist q (T.pts i)) →
    r ≤ T.num.big → (T.looked q (radiusVisitor r) out).Sublist (T.looked q nnVisitor (nnInit T.num nn))

omit [Field α] [LinearOrder α] [IsStrictOrderedRing α] in
theorem knnInit_pos {N : Num α} {buf : List (Neighbor α)} {s : KnnState α} (h : knnInit N buf = .ok s) :
    0 < buf.length := by
  cases buf with
  | nil => simp [knnInit] at h
  | cons a l => simp

theorem GuardAt.frugal (h : GuardAt T q term) : Frugal T q := by
  have hnn : ∀ i < T.n, 0 ≤ T.metric.dist q (T.pts i) := fun i hi => by
    rw [h.dist_eq i hi]
    exact Finset.sum_nonneg fun j _ => h.nonneg i hi j
  have hconst : ∀ (r : α) (V : Visitor α (List (Neighbor α))), (∀ s, V.max s = r) →
      Shrinks V (fun i => T.metric.dist q (T.pts i)) (· < T.n) (fun _ => True) :=
    fun r V hV s i _ _ => ⟨trivial, by rw [hV, hV]⟩
  have happrox : ∀ (e : α), 1 ≤ e → ∀ i < T.n, T.metric.dist q (T.pts i) * (1 / e) ≤ T.metric.dist q (T.pts i) :=
    fun e he i hi => scaled_le he (dist := fun i => T.metric.dist q (T.pts i)) (hnn i hi)
  constructor
  · intro σ V s
    have h1 := (c100_answer T q V s).2.2
    rw [h.elems] at h1
    have h2 := h1.trans h.perm.subperm
    obtain ⟨l, hl, hsub⟩ := id h2
    exact ⟨hl.nodup_iff.1 (hsub.nodup List.nodup_range), fun i hi => List.mem_range.1 (h2.subset hi)⟩
  · intro e nn nn' he
    refine h.looked (Inv := fun _ => True)
      (fun s i _ _ => shrinks_nn (scaled e fun i => T.metric.dist q (T.pts i)) s i trivial trivial) trivial ?_
    refine CountMax.dominated (f := scaled e fun i => T.metric.dist q (T.pts i))
      (f' := fun i => T.metric.dist q (T.pts i)) (k := 1) (k' := 1) (big := T.num.big) ?_
      (countMax_nn _ _ _ _) le_rfl (fun i hi => happrox e he i hi) fun i _ => le_rfl
    intro w hw
    exact countMax_nn T.num (scaled e fun i => T.metric.dist q (T.pts i)) nn (· < T.n) w hw
  · intro hbig nn buf s hs
    have hb := knnInit_pos hs
    refine h.looked (Inv := fun _ => True)
      (fun s i _ _ => shrinks_nn (fun i => T.metric.dist q (T.pts i)) s i trivial trivial) trivial ?_
    refine CountMax.dominated (k := 1) (k' := buf.length) (big := T.num.big) (countMax_nn _ _ _ _) ?_ hb
      (fun i _ => le_rfl) fun i _ => le_rfl
    intro w hw
    exact countMax_knn T.num (fun i => T.metric.dist q (T.pts i)) hb hs w fun i hi => hbig i (hw i hi)
  · intro hbig buf buf' s s' hle hs hs'
    have hb := knnInit_pos hs
    obtain ⟨s₁, Inv, g1, g2, g3⟩ := knnInit_shrinks hbig hb
    rw [hs] at g1
    injection g1 with g1
    subst g1
    refine h.looked (Inv := Inv) g3 g2 ?_
    refine CountMax.dominated (k := buf.length) (k' := buf'.length) (big := T.num.big) (fun w hw => ?_)
      (fun w hw => ?_) hle (fun i _ => le_rfl) fun i _ => le_rfl
    · exact countMax_knn T.num (fun i => T.metric.dist q (T.pts i)) hb hs w fun i hi => hbig i (hw i hi)
    · exact countMax_knn T.num (fun i => T.metric.dist q (T.pts i)) (knnInit_pos hs') hs' w
        fun i hi => hbig i (hw i hi)
  · intro hbig e buf buf' s s' he hle hs hs'
    have hb := knnInit_pos hs
    obtain ⟨s₁, Inv, g1, g2, g3⟩ := approxKnnInit_shrinks he hnn hbig hb
    rw [hs] at g1
    injection g1 with g1
    subst g1
    refine h.looked (Inv := Inv) g3 g2 ?_
    refine CountMax.dominated (f := scaled e fun i => T.metric.dist q (T.pts i)) (k := buf.length)
      (k' := buf'.length) (big := T.num.big) (fun w hw => ?_)
      (fun w hw => ?_) hle (fun i hi => happrox e he i hi) fun i _ => le_rfl
    · exact countMax_knn T.num (scaled e fun i => T.metric.dist q (T.pts i)) hb hs w
        fun i hi => (happrox e he i (hw i hi)).trans_lt (hbig i (hw i hi))
    · exact countMax_knn T.num (fun i => T.metric.dist q (T.pts i)) (knnInit_pos hs') hs' w
        fun i hi => hbig i (hw i hi)
  · intro r r' out out' hr
    exact h.looked (hconst r _ fun _ => rfl) trivial fun w w' _ _ => hr
  · intro r e e' out out' hr he he'
    have he0 : 0 < e' := one_pos.trans_le he
    refine ⟨h.looked (hconst (r * (1 / e)) _ fun _ => rfl) trivial fun w w' _ _ => ?_,
      h.looked (hconst (r * (1 / e)) _ fun _ => rfl) trivial fun w w' _ _ => ?_⟩
    · exact mul_le_mul_of_nonneg_left (one_div_le_one_div_of_le he0 he') hr
    · change r * (1 / e) ≤ r
      refine mul_le_of_le_one_right hr ?_
      rw [div_le_one (he0.trans_le he')]
      exact he.trans he'
  · intro r out nn hr hbig
    refine h.looked (hconst r _ fun _ => rfl) trivial fun w w' hw _ => ?_
    change r ≤ (visitAll nnVisitor _ w' (nnInit T.num nn)).distance
    rcases nn_visitAll (fun i => T.metric.dist q (T.pts i)) w' (nnInit T.num nn) with ⟨h1, -⟩ | ⟨i, hi, h1, -⟩
    · rw [h1]
      exact hbig
    · rw [h1]
      exact hr i (hw i hi)

end Looked

section Trees
variable {α : Type} [Field α] [LinearOrder α] [IsStrictOrderedRing α] {d : Nat} {N : Num α} {pts : Nat → Pt α d}
  {n : Nat} {o : BuildOpts α d} {fuel : Nat}

/-- C100 for every Euclidean metric that adds over the axes, in particular `metric_l1` and `metric_l2_squared`. -/
theorem c100_euclidean {M : Metric α d} (hM : EuclideanAdditive M) {T : KdTree α d (Branch1 α d)}
    (h : KdTree.make (euclideanTag α d) M N pts n o fuel = .ok T) (hR : Representable N pts n o) (hn : 0 < n)
    (q : Pt α d) : Frugal T q :=
  GuardAt.frugal (guardAt_euclidean hM h hR hn q)

/-- C100 for every topological metric that adds over the axes, in particular SO(2), SE(2) and the torus. -/
theorem c100_topological {M : Metric α d} (hM : TopologicalAdditive M) {T : KdTree α d (Branch2 α d)}
    (h : KdTree.make (topologicalTag α d) M N pts n o fuel = .ok T) (hR : Representable N pts n o) (hn : 0 < n)
    (q : Pt α d) (hc : CircleOk M.space pts n o q) : Frugal T q :=
  GuardAt.frugal (guardAt_topological hM h hR hn q hc)

end Trees

/-! ## The ratio -/

/-- Seven points of the plane. -/
def ratio7 (i : Nat) : Pt ℚ 2 :=
  ([![1, 13], ![9, 2], ![8, 9], ![14, 5], ![4, 14], ![5, 0], ![13, 12]] : List (Pt ℚ 2)).getD i 0

/-- C101 is false: with the ratio 2 the search for the query `(8, 6)` looks at two of the seven points and finds the
point 1 at distance 17, with the ratio 3 it looks at three, two of them others, and finds the nearest point 2 at
distance 9. The exact search looks at four. -/
theorem c101_false :
    ∃ T, KdTree.make (euclideanTag ℚ 2) (metricL2Sq ℚ 2) Ref.ratNum ratio7 7 (Ref.optsSliding ℚ 2) 20 = .ok T ∧
      T.looked ![8, 6] (approxNnVisitor 2) (nnInit T.num ⟨0, 0⟩) = [3, 1] ∧
      (T.searchNearest ![8, 6] (approxNnVisitor 2) (nnInit T.num ⟨0, 0⟩)).index = 1 ∧
      T.looked ![8, 6] (approxNnVisitor 3) (nnInit T.num ⟨0, 0⟩) = [3, 5, 2] ∧
      (T.searchNearest ![8, 6] (approxNnVisitor 3) (nnInit T.num ⟨0, 0⟩)).index = 2 ∧
      T.looked ![8, 6] nnVisitor (nnInit T.num ⟨0, 0⟩) = [3, 1, 5, 2] ∧
      (T.searchNearest ![8, 6] nnVisitor (nnInit T.num ⟨0, 0⟩)).index = 2 := by
  obtain ⟨T, h1, h2⟩ := Outcome.exists_of_check
    (x := KdTree.make (euclideanTag ℚ 2) (metricL2Sq ℚ 2) Ref.ratNum ratio7 7 (Ref.optsSliding ℚ 2) 20)
    (p := fun T => decide (T.looked ![8, 6] (approxNnVisitor 2) (nnInit T.num ⟨0, 0⟩) = [3, 1] ∧
      (T.searchNearest ![8, 6] (approxNnVisitor 2) (nnInit T.num ⟨0, 0⟩)).index = 1 ∧
      T.looked ![8, 6] (approxNnVisitor 3) (nnInit T.num ⟨0, 0⟩) = [3, 5, 2] ∧
      (T.searchNearest ![8, 6] (approxNnVisitor 3) (nnInit T.num ⟨0, 0⟩)).index = 2 ∧
      T.looked ![8, 6] nnVisitor (nnInit T.num ⟨0, 0⟩) = [3, 1, 5, 2] ∧
      (T.searchNearest ![8, 6] nnVisitor (nnInit T.num ⟨0, 0⟩)).index = 2)) (by decide +kernel)
  exact ⟨T, h1, of_decide_eq_true h2⟩

/-- The hypotheses of C100 for this tree. -/
example : Representable Ref.ratNum ratio7 7 (Ref.optsSliding ℚ 2) ∧
    ∀ i < 7, (metricL2Sq ℚ 2).dist ![8, 6] (ratio7 i) < Ref.ratNum.big :=
  ⟨⟨by decide +kernel, by unfold InRange; decide +kernel, trivial, by simp [Ref.optsSliding]⟩, by decide +kernel⟩

end Pico.Props
