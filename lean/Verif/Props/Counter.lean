import Verif.Model.Counter
import Verif.Proof.Relate
import Verif.Props.Query
import Verif.Props.Nearest

/-!
# C89: the custom visitor of the examples
-/

set_option linter.unusedSectionVars false

namespace Pico.Props

open Pico Spec

section Any
variable {α : Type} [LinearOrder α] [Zero α] [Add α] [Sub α] {d : Nat} {β : Type}

/-- C89 (result): counting does not change the answer, whatever the metric and the arithmetic. -/
theorem c89_result (T : KdTree α d β) (q : Pt α d) (nn : Neighbor α) :
    (T.searchNearest q counterVisitor (counterInit T.num nn)).2 = T.searchNn q nn := by
  unfold KdTree.searchNn KdTree.searchNearest searchNearestRoot
  refine (searchNearest_rel _ _ counterVisitor nnVisitor _ _ (fun s t => s.2 = t) ?_ ?_ _ _ _ _ _ rfl).2
  · rintro s t rfl
    rfl
  · rintro s t i rfl
    rfl

theorem counter_visitAll (dist : Nat → α) (l : List Nat) (s : Nat × Neighbor α) :
    (visitAll counterVisitor dist l s).1 = s.1 + l.length := by
  unfold visitAll
  induction l generalizing s with
  | nil => rfl
  | cons a l ih =>
    rw [List.foldl_cons, ih, List.length_cons]
    change s.1 + 1 + l.length = _
    omega

end Any

section Count
variable {α : Type} [LinearOrder α] [Zero α] [Add α] [Sub α] {d : Nat} {β : Type} {tag : SpaceTag α d β}
  {M : Metric α d} {N : Num α} {pts : Nat → Pt α d} {n : Nat} {o : BuildOpts α d} {fuel : Nat} {T : KdTree α d β}

/-- C89 (count): `count()` is the length of the sequence of points the search presents, in which no point occurs
twice; so it is at most the number of points. -/
theorem c89_count (h : KdTree.make tag M N pts n o fuel = .ok T) (q : Pt α d) (nn : Neighbor α) :
    ∃ calls : List Nat, calls.Nodup ∧ (∀ i ∈ calls, i < n) ∧
      T.searchNearest q counterVisitor (counterInit N nn) =
        calls.foldl (fun s i => counterVisitor.visit s i (M.dist q (pts i))) (counterInit N nn) ∧
      (T.searchNearest q counterVisitor (counterInit N nn)).1 = calls.length ∧
      (T.searchNearest q counterVisitor (counterInit N nn)).1 ≤ n := by
  obtain ⟨vis, hnd, hlt, he⟩ := traversal_any h q counterVisitor (counterInit N nn)
  have hc : (T.searchNearest q counterVisitor (counterInit N nn)).1 = vis.length := by
    rw [he, counter_visitAll]
    exact Nat.zero_add _
  refine ⟨vis, hnd, hlt, he, hc, ?_⟩
  rw [hc]
  have : vis ⊆ List.range n := fun i hi => List.mem_range.2 (hlt i hi)
  simpa using (hnd.subperm this).length_le

end Count

section Exact
variable {α : Type} [Field α] [LinearOrder α] [IsStrictOrderedRing α] {d : Nat} {N : Num α}
  {pts : Nat → Pt α d} {n : Nat} {o : BuildOpts α d} {fuel : Nat} {T : KdTree α d (Branch1 α d)}

/-- C89 (lower bound): every point that is not farther than the result is counted; in particular at least one. -/
theorem c89_lower {M : Metric α d} (hM : EuclideanAdditive M)
    (h : KdTree.make (euclideanTag α d) M N pts n o fuel = .ok T) (hR : Representable N pts n o) (hn : 0 < n)
    (q : Pt α d) (hbig : ∀ i < n, M.dist q (pts i) < N.big) (nn : Neighbor α) :
    ((List.range n).filter fun i => decide (M.dist q (pts i) ≤ (T.searchNn q nn).distance)).length ≤
      (T.searchNearest q counterVisitor (counterInit N nn)).1 ∧
    1 ≤ (T.searchNearest q counterVisitor (counterInit N nn)).1 := by
  obtain ⟨calls, h1, h2, h3, h4⟩ := c14_visitor_contract hM h hR hn q counterVisitor (fun _ => True)
    (counterInit N nn) trivial (by
      intro s i hi _
      refine ⟨trivial, ?_⟩
      change (if s.2.distance > M.dist q (pts i) then (⟨i, M.dist q (pts i)⟩ : Neighbor α) else s.2).distance ≤
        s.2.distance
      split
      · exact le_of_lt ‹_›
      · exact le_rfl)
  have hN : T.num = N := (KdTree.make_ok h).2.2.1
  have hc : (T.searchNearest q counterVisitor (counterInit N nn)).1 = calls.length := by
    rw [h3]
    refine (counter_visitAll (fun i => M.dist q (pts i)) calls (counterInit N nn)).trans ?_
    exact Nat.zero_add _
  have hr : (T.searchNearest q counterVisitor (counterInit N nn)).2 = T.searchNn q nn := by
    rw [← hN]
    exact c89_result T q nn
  have hmax : ∀ i < n, i ∉ calls → (T.searchNn q nn).distance < M.dist q (pts i) := by
    intro i hi hno
    rw [← hr]
    exact h4 i hi hno
  have hsub : ((List.range n).filter fun i => decide (M.dist q (pts i) ≤ (T.searchNn q nn).distance)) ⊆ calls := by
    intro i hi
    obtain ⟨a, b⟩ := List.mem_filter.1 hi
    by_contra hc
    exact absurd (of_decide_eq_true b) (not_le.2 (hmax i (List.mem_range.1 a) hc))
  have hlen := ((List.nodup_range.filter _).subperm hsub).length_le
  refine ⟨by rw [hc]; exact hlen, ?_⟩
  rw [hc]
  by_contra hz
  have hnil : calls = [] := List.length_eq_zero_iff.1 (by omega)
  have h5 := hmax 0 hn (by rw [hnil]; simp)
  have h6 : (T.searchNn q nn).distance = N.big := by
    rw [← hr, h3, hnil]
    rfl
  rw [h6] at h5
  exact absurd h5 (not_lt.2 (hbig 0 hn).le)

end Exact

/-- Eight points on a line, query beside the first: one of them is visited. -/
example : ∃ T, KdTree.make (euclideanTag ℚ 1) (metricL2Sq ℚ 1) Ref.ratNum (fun i => ![(i : ℚ)]) 8
    (Ref.optsSliding ℚ 1) 20 = .ok T ∧
    T.searchNearest ![1 / 10] counterVisitor (counterInit Ref.ratNum ⟨0, 0⟩) = (1, ⟨0, 1 / 100⟩) := by
  obtain ⟨T, h1, h2⟩ := Outcome.exists_of_check (x := KdTree.make (euclideanTag ℚ 1) (metricL2Sq ℚ 1) Ref.ratNum
    (fun i => ![(i : ℚ)]) 8 (Ref.optsSliding ℚ 1) 20)
    (p := fun T => decide (T.searchNearest ![1 / 10] counterVisitor (counterInit Ref.ratNum ⟨0, 0⟩) =
      (1, ⟨0, 1 / 100⟩))) (by decide +kernel)
  exact ⟨T, h1, of_decide_eq_true h2⟩

end Pico.Props
