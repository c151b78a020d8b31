import Verif.Proof.Cells
import Verif.Props.Looked
import Verif.Props.Builder

/-!
# C102: a search opens the leaves near the query, and only these

The cell of a leaf (`Spec.cell`) is bounded by the middles of the gaps above it, its tight cell (`Spec.tightCell`) by
the outermost points. A leaf is opened only if a place of its cell is not farther than what the visitor asks for at
that moment (`c102_opened`), and surely if a place of its tight cell is that near (`c102_reached`).
-/

namespace Pico.Props

open Pico Spec

section Cells
variable {α : Type} [Field α] [LinearOrder α] [IsStrictOrderedRing α] {d : Nat} {N : Num α} {pts : Nat → Pt α d}
  {n : Nat} {o : BuildOpts α d} {fuel : Nat} {M : Metric α d} {T : KdTree α d (Branch1 α d)} {σ : Type}

/-- For every visitor: when point `i` is looked at, then the leaf of `i` was opened after the points `w0`, everything
since then is of the same leaf, and the cell of the leaf has a place `y` that is the query itself (of the first leaf)
or not farther than `max()` was when the leaf was opened. -/
theorem c102_opened (hM : EuclideanAdditive M) (h0 : M.one 0 = 0)
    (h : KdTree.make (euclideanTag α d) M N pts n o fuel = .ok T) (hR : Representable N pts n o) (hn : 0 < n)
    (hne : ∀ r ∈ ranges T.data.root, r.1 < r.2) (q : Pt α d) (V : Visitor α σ) (s : σ) {w1 w2 : List Nat} {i : Nat}
    (hl : T.looked q V s = w1 ++ i :: w2) :
    ∃ w0, w0 <+: w1 ∧
      (∃ r ∈ ranges T.data.root, ∀ k ∈ w1.drop w0.length ++ [i], k ∈ (T.data.indices.drop r.1).take (r.2 - r.1)) ∧
      ∃ y, cell T.data.indices T.data.root i y ∧
        ((y = q ∧ w0 = []) ∨ M.dist q y ≤ V.max (w0.foldl (fun s i => V.visit s i (M.dist q (pts i))) s)) := by
  obtain ⟨hperm, _, ⟨box, hB⟩, _⟩ := KdTree.make_built h hR hn
  obtain ⟨h1, h2, _, h4, _, _⟩ := KdTree.make_ok h
  have hnd : ([] ++ (T.data.indices ++ [])).Nodup := by
    simpa using hperm.nodup_iff.2 List.nodup_range
  obtain ⟨ho, -⟩ := built_opens (V := V) (dist := fun i => M.dist q (pts i)) hM (q := q) hB [] [] rfl hnd hne
  obtain ⟨vis, he, -, hv⟩ := ho 0 (fun _ => 0) q s [] (fun j => Or.inl rfl) (fun j => by rw [sub_self, h0]) (by simp)
  simp only [List.nil_append, List.append_nil] at he hv
  have hlook : T.looked q V s = vis := by
    rw [KdTree.looked, KdTree.searchNearest, searchNearestRoot, h1, h2, h4, he]
  obtain ⟨w0, g1, ⟨r, hr, g2, g3⟩, y, g4, -, g5⟩ := hv w1 i w2 (hlook.symm.trans hl)
  refine ⟨w0, g1, ⟨r, hr, fun k hk => ?_⟩, y, g4, ?_⟩
  · rcases List.mem_append.1 hk with hk | hk
    · exact g3 k hk
    · rw [List.mem_singleton.1 hk]
      exact g2
  · rw [hM.dist_eq]
    exact g5

/-- For every visitor whose `max()` never falls below `ρ` on the way: every point is looked at whose tight cell has a
place within `ρ`. -/
theorem c102_reached (hM : EuclideanAdditive M)
    (h : KdTree.make (euclideanTag α d) M N pts n o fuel = .ok T) (hR : Representable N pts n o) (hn : 0 < n)
    (q : Pt α d) (V : Visitor α σ) (s : σ) (ρ : α)
    (hρ : ∀ w, w <+: T.looked q V s → ρ ≤ V.max (w.foldl (fun s i => V.visit s i (M.dist q (pts i))) s))
    {i : Nat} (hi : i < n) {y : Pt α d} (hy : tightCell T.data.indices T.data.root i y) (hd : M.dist q y ≤ ρ) :
    i ∈ T.looked q V s := by
  obtain ⟨hperm, _, ⟨box, hB⟩, hel⟩ := KdTree.make_built h hR hn
  obtain ⟨h1, h2, _, h4, _, _⟩ := KdTree.make_ok h
  obtain ⟨vis, he, hv⟩ := built_reaches (V := V) (dist := fun i => M.dist q (pts i)) hM (q := q) hB T.data.indices y i ρ
    (by rw [← hM.dist_eq]; exact hd) 0 (fun _ => 0) s [] (by simp)
  have hlook : T.looked q V s = vis := by
    rw [KdTree.looked, KdTree.searchNearest, searchNearestRoot, h1, h2, h4, he]
    rfl
  rw [hlook] at hρ ⊢
  refine hv ?_ hy (fun j => hM.one_nonneg _) hρ
  rw [hel]
  exact hperm.symm.subset (List.mem_range.2 hi)

/-- The radius search, from both sides. -/
theorem c102_radius (hM : EuclideanAdditive M) (h0 : M.one 0 = 0)
    (h : KdTree.make (euclideanTag α d) M N pts n o fuel = .ok T) (hR : Representable N pts n o) (hn : 0 < n)
    (hne : ∀ r ∈ ranges T.data.root, r.1 < r.2) (q : Pt α d) (r : α) (out : List (Neighbor α)) :
    (∀ i ∈ T.looked q (radiusVisitor r) out, ∃ y, cell T.data.indices T.data.root i y ∧ (y = q ∨ M.dist q y ≤ r)) ∧
    ∀ i < n, (∃ y, tightCell T.data.indices T.data.root i y ∧ M.dist q y ≤ r) →
      i ∈ T.looked q (radiusVisitor r) out := by
  refine ⟨fun i hi => ?_, fun i hi ⟨y, hy, hd⟩ => ?_⟩
  · obtain ⟨w1, w2, hw⟩ := List.append_of_mem hi
    obtain ⟨w0, -, -, y, hy, hd⟩ := c102_opened hM h0 h hR hn hne q (radiusVisitor r) out hw
    exact ⟨y, hy, hd.imp And.left fun h => h⟩
  · exact c102_reached hM h hR hn q (radiusVisitor r) out r (fun _ _ => le_rfl) hi hy hd

/-- The search for the nearest neighbor: a leaf after the first is opened only if its cell reaches nearer than the best
point so far, and no leaf is left out whose tight cell reaches nearer than the answer. -/
theorem c102_nn (hM : EuclideanAdditive M) (h0 : M.one 0 = 0)
    (h : KdTree.make (euclideanTag α d) M N pts n o fuel = .ok T) (hR : Representable N pts n o) (hn : 0 < n)
    (hne : ∀ r ∈ ranges T.data.root, r.1 < r.2) (q : Pt α d) (nn : Neighbor α) :
    (∀ w1 i w2, T.looked q nnVisitor (nnInit T.num nn) = w1 ++ i :: w2 →
      ∃ w0, w0 <+: w1 ∧
        (∃ r ∈ ranges T.data.root, ∀ k ∈ w1.drop w0.length ++ [i], k ∈ (T.data.indices.drop r.1).take (r.2 - r.1)) ∧
        ∃ y, cell T.data.indices T.data.root i y ∧ ((y = q ∧ w0 = []) ∨ ∀ k ∈ w0, M.dist q y ≤ M.dist q (pts k))) ∧
    ∀ i < n, (∃ y, tightCell T.data.indices T.data.root i y ∧
        M.dist q y ≤ (T.searchNearest q nnVisitor (nnInit T.num nn)).distance) →
      i ∈ T.looked q nnVisitor (nnInit T.num nn) := by
  obtain ⟨_, h2, _, h4, h5, _⟩ := KdTree.make_ok h
  have hsh := shrinks_nn fun i => M.dist q (pts i)
  refine ⟨fun w1 i w2 hw => ?_, fun i hi ⟨y, hy, hd⟩ => ?_⟩
  · obtain ⟨w0, g1, g2, y, hy, hd⟩ := c102_opened hM h0 h hR hn hne q nnVisitor (nnInit T.num nn) hw
    refine ⟨w0, g1, g2, y, hy, hd.imp id fun hd k hk => hd.trans ?_⟩
    obtain ⟨a, b, rfl⟩ := List.append_of_mem hk
    change nnVisitor.max (visitAll nnVisitor (fun i => M.dist q (pts i)) (a ++ k :: b) (nnInit T.num nn)) ≤ _
    rw [visitAll_append]
    refine (hsh.visitAll b (fun _ _ => trivial) _ trivial).2.trans ?_
    simp only [nnVisitor]
    split_ifs with hlt
    · exact le_rfl
    · exact not_lt.1 hlt
  · refine c102_reached hM h hR hn q nnVisitor (nnInit T.num nn) _ (fun w hw => ?_) hi hy hd
    obtain ⟨u, hu⟩ := hw
    rw [← (c100_answer T q nnVisitor (nnInit T.num nn)).2.1, ← hu, List.foldl_append, h2, h4]
    exact (hsh.visitAll u (fun _ _ => trivial) _ trivial).2

end Cells

/-! ## A tree -/

/-- The hypotheses for the seven points of C101: the query `(8, 6)` looks at three of them for the radius 9, the tree
has no empty leaf. -/
example :
    ∃ T, KdTree.make (euclideanTag ℚ 2) (metricL2Sq ℚ 2) Ref.ratNum ratio7 7 (Ref.optsSliding ℚ 2) 20 = .ok T ∧
      (∀ r ∈ ranges T.data.root, r.1 < r.2) ∧ T.looked ![8, 6] (radiusVisitor 9) [] = [3, 5, 2] ∧
      (metricL2Sq ℚ 2).one 0 = 0 := by
  obtain ⟨T, h1, h2⟩ := Outcome.exists_of_check
    (x := KdTree.make (euclideanTag ℚ 2) (metricL2Sq ℚ 2) Ref.ratNum ratio7 7 (Ref.optsSliding ℚ 2) 20)
    (p := fun T => decide (T.looked ![8, 6] (radiusVisitor 9) [] = [3, 5, 2])) (by decide +kernel)
  exact ⟨T, h1, (c20_nonempty h1 (by decide) (by simp [Ref.optsSliding])).1, of_decide_eq_true h2, by decide +kernel⟩

end Pico.Props
