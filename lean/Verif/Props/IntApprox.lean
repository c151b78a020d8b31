import Verif.Props.MachineInt
import Verif.Props.Query

/-!
# C144: approximate searches with integer scalars

`e_inv_{scalar_type(1.0) / e}` (search_visitor.hpp:173, 216, 265) is an integer division if the scalar type is `int`:
one for `e = 1` and zero for every larger ratio.
-/

set_option linter.unusedSectionVars false

namespace Pico

section Full
variable {α : Type} [LinearOrder α] [Zero α] [Add α] [Sub α] {d : Nat} {β σ : Type}

/-- A search that leaves points out has seen enough for `max()` to be below something. -/
theorem searchNearest_full (splitDim : β → Fin d) (pick : β → Bool × α) (V : Visitor α σ) (dist : Nat → α)
    (indices : List Nat) (t : Tree β) (D : α) (st : Pt α d × σ) :
    ∃ vis skip, (vis ++ skip).Perm (t.elems indices) ∧
      searchNearest splitDim pick V dist indices t D st = (st.1, visitAll V dist vis st.2) ∧
      (skip = [] ∨ ∃ pre, pre <+: vis ∧ ∃ x, V.max (visitAll V dist pre st.2) < x) := by
  induction t generalizing D st with
  | leaf b e =>
    exact ⟨slice indices b e, [], by simp [Tree.elems], by simp [searchNearest], .inl rfl⟩
  | branch data l r ihl ihr =>
    have key : ∀ (t1 t2 : Tree β),
        (∀ (D : α) (st : Pt α d × σ), ∃ vis skip, (vis ++ skip).Perm (t1.elems indices) ∧
          searchNearest splitDim pick V dist indices t1 D st = (st.1, visitAll V dist vis st.2) ∧
          (skip = [] ∨ ∃ pre, pre <+: vis ∧ ∃ x, V.max (visitAll V dist pre st.2) < x)) →
        (∀ (D : α) (st : Pt α d × σ), ∃ vis skip, (vis ++ skip).Perm (t2.elems indices) ∧
          searchNearest splitDim pick V dist indices t2 D st = (st.1, visitAll V dist vis st.2) ∧
          (skip = [] ∨ ∃ pre, pre <+: vis ∧ ∃ x, V.max (visitAll V dist pre st.2) < x)) →
        ∃ vis skip, (vis ++ skip).Perm (t1.elems indices ++ t2.elems indices) ∧
          (let st1 := searchNearest splitDim pick V dist indices t1 D st
           let oldOffset := st1.1 (splitDim data)
           let D' := D - oldOffset + (pick data).2
           if V.max st1.2 ≥ D' then
            let st' := (Function.update st1.1 (splitDim data) (pick data).2, st1.2)
            let st2 := searchNearest splitDim pick V dist indices t2 D' st'
            (Function.update st2.1 (splitDim data) oldOffset, st2.2)
           else st1) = (st.1, visitAll V dist vis st.2) ∧
          (skip = [] ∨ ∃ pre, pre <+: vis ∧ ∃ x, V.max (visitAll V dist pre st.2) < x) := by
      intro t1 t2 h1 h2
      obtain ⟨v1, s1, hp1, he1, hf1⟩ := h1 D st
      dsimp only
      rw [he1]
      dsimp only
      split_ifs with hc
      · obtain ⟨v2, s2, hp2, he2, hf2⟩ := h2 (D - st.1 (splitDim data) + (pick data).2)
          (Function.update st.1 (splitDim data) (pick data).2, visitAll V dist v1 st.2)
        refine ⟨v1 ++ v2, s1 ++ s2, ?_, ?_, ?_⟩
        · have := hp1.append hp2
          refine List.Perm.trans ?_ this
          simp only [List.append_assoc]
          refine List.Perm.append_left _ ?_
          rw [← List.append_assoc, ← List.append_assoc]
          exact List.Perm.append_right _ List.perm_append_comm
        · rw [he2]
          simp [visitAll_append]
        · rcases hf1 with rfl | ⟨pre, hpre, x, hx⟩
          · rcases hf2 with rfl | ⟨pre, hpre, x, hx⟩
            · exact .inl rfl
            · exact .inr ⟨v1 ++ pre, (List.prefix_append_right_inj v1).2 hpre, x, by
                rw [visitAll_append]; exact hx⟩
          · exact .inr ⟨pre, hpre.trans (List.prefix_append _ _), x, hx⟩
      · refine ⟨v1, s1 ++ t2.elems indices, ?_, rfl, .inr ⟨v1, List.prefix_refl _, _, not_le.1 hc⟩⟩
        rw [← List.append_assoc]
        exact hp1.append_right _
    rw [searchNearest]
    cases h : (pick data).1 with
    | true =>
      obtain ⟨vis, skip, h1, h2⟩ := key l r ihl ihr
      exact ⟨vis, skip, by simpa [Tree.elems] using h1, by simpa [h] using h2⟩
    | false =>
      obtain ⟨vis, skip, h1, h2⟩ := key r l ihr ihl
      refine ⟨vis, skip, ?_, by simpa [h] using h2⟩
      simp only [Tree.elems]
      exact h1.trans List.perm_append_comm

end Full

namespace MachineInt
variable {I : MachineInt}

theorem zero_val : ((0 : I.F)).1 = 0 := rfl

/-- `1 / e` of a ratio of two or more. -/
theorem inv_zero {e : I.F} (he : 2 ≤ e.1) : (1 : I.F) / e = 0 := by
  have h1 : ((1 : I.F)).1 = 1 := I.exact 1 (I.lo_le.trans zero_le_one) (by have := e.2.2; omega)
  apply Subtype.ext
  change I.norm (((1 : I.F)).1.tdiv e.1) = 0
  rw [h1, Int.tdiv_eq_ediv_of_nonneg (by norm_num), Int.ediv_eq_zero_of_lt (by norm_num) (by omega)]
  exact I.exact 0 I.lo_le I.le_hi

theorem inv_one {e : I.F} (he : e.1 = 1) : (1 : I.F) / e = e := by
  have h1 : ((1 : I.F)).1 = 1 := I.exact 1 (I.lo_le.trans zero_le_one) (by have := e.2.2; omega)
  apply Subtype.ext
  change I.norm (((1 : I.F)).1.tdiv e.1) = e.1
  rw [h1, he]
  exact I.exact 1 (I.lo_le.trans zero_le_one) (by have := e.2.2; omega)

theorem mul_zero' (x : I.F) : x * 0 = 0 := by
  apply Subtype.ext
  change I.norm (x.1 * 0) = 0
  rw [mul_zero]
  exact I.exact 0 I.lo_le I.le_hi

theorem mul_unit (x : I.F) {e : I.F} (he : e.1 = 1) : x * e = x := by
  apply Subtype.ext
  change I.norm (x.1 * e.1) = x.1
  rw [he, mul_one]
  exact I.exact _ x.2.1 x.2.2

end MachineInt

namespace Props

open Spec MachineInt

section
variable {I : MachineInt} {d : Nat} {β : Type} {tag : SpaceTag I.F d β} {M : Metric I.F d} {N : Num I.F}
  {pts : Nat → Pt I.F d} {n : Nat} {o : BuildOpts I.F d} {fuel : Nat} {T : KdTree I.F d β}

/-- C144: with the ratio one, the approximate searches are the exact ones. -/
theorem c144_one (T : KdTree I.F d β) (q : Pt I.F d) {e : I.F} (he : e.1 = 1) :
    (∀ nn, T.searchNnApprox q e nn = T.searchNn q nn) ∧
    (∀ k prior, T.searchKnnApprox q k e prior = T.searchKnn q k prior) ∧
    ∀ sorter r prior sort, T.searchRadiusApprox sorter q r e prior sort = T.searchRadius sorter q r prior sort := by
  have h1 : (approxNnVisitor e : Visitor I.F _) = nnVisitor := by
    unfold approxNnVisitor nnVisitor
    simp only [inv_one he, mul_unit _ he]
  have h2 : approxKnnVisitor T.num e = knnVisitor T.num := by
    unfold approxKnnVisitor knnVisitor
    simp only [inv_one he, mul_unit _ he]
  have h3 : ∀ r, approxRadiusVisitor e r = radiusVisitor r := by
    intro r
    unfold approxRadiusVisitor radiusVisitor
    simp only [inv_one he, mul_unit _ he]
  refine ⟨fun nn => ?_, fun k prior => ?_, fun sorter r prior sort => ?_⟩
  · unfold KdTree.searchNnApprox KdTree.searchNn
    rw [h1]
  · unfold KdTree.searchKnnApprox KdTree.searchKnnApproxRange KdTree.searchKnn KdTree.searchKnnRange
    rw [h2]
  · unfold KdTree.searchRadiusApprox KdTree.searchRadius
    rw [h3]

/-- C144: with a larger ratio, the approximate `search_radius` returns nothing, whatever the radius. -/
theorem c144_radius_empty (h : KdTree.make tag M N pts n o fuel = .ok T) (q : Pt I.F d) {e : I.F} (he : 2 ≤ e.1)
    (sorter : StdSort (Neighbor I.F)) (r : I.F) (prior : List (Neighbor I.F)) (sort : Bool) :
    T.searchRadiusApprox sorter q r e prior sort = [] := by
  obtain ⟨vis, _, _, hv⟩ := traversal_any h q (approxRadiusVisitor e r) (radiusInit prior)
  have hnil : T.searchNearest q (approxRadiusVisitor e r) (radiusInit prior) = [] := by
    rw [hv]
    have : ∀ (l : List Nat) (dist : Nat → I.F), visitAll (approxRadiusVisitor e r) dist l [] = [] := by
      intro l dist
      induction l with
      | nil => rfl
      | cons a l ih =>
        rw [visitAll, List.foldl_cons]
        have : (approxRadiusVisitor e r).visit [] a (dist a) = [] := by
          simp [approxRadiusVisitor, inv_zero he, mul_zero']
        rw [this]
        exact ih
    exact this vis _
  unfold KdTree.searchRadiusApprox
  dsimp only
  rw [hnil]
  cases sort with
  | false => rfl
  | true => simpa using sorter.sort_perm_on Neighbor.lt [] (strictWeak_neighborLt.on [])

/-- The traversal, and that it has seen a point for each place where it stops early. -/
theorem traversal_full (h : KdTree.make tag M N pts n o fuel = .ok T) (q : Pt I.F d) {σ : Type}
    (V : Visitor I.F σ) (s : σ) :
    ∃ vis : List Nat, vis.Nodup ∧ (∀ i ∈ vis, i < n) ∧
      T.searchNearest q V s = visitAll V (fun i => M.dist q (pts i)) vis s ∧
      (vis.length = n ∨ ∃ pre, pre <+: vis ∧ ∃ x, V.max (visitAll V (fun i => M.dist q (pts i)) pre s) < x) := by
  obtain ⟨h1, _, h3⟩ := c16_partition h
  obtain ⟨_, rfl, rfl, rfl, rfl, _⟩ := KdTree.make_ok h
  obtain ⟨vis, skip, hp, he, hf⟩ := searchNearest_full T.tag.splitDim (T.tag.pick T.metric q) V
    (fun i => T.metric.dist q (T.pts i)) T.data.indices T.data.root 0 (fun _ => 0, s)
  rw [elems_eq_ranges, h3] at hp
  have hp' := hp.trans h1
  refine ⟨vis, (List.nodup_append.1 (hp'.nodup_iff.2 List.nodup_range)).1, ?_, ?_, ?_⟩
  · intro i hi
    exact List.mem_range.1 (hp'.subset (List.mem_append_left _ hi))
  · unfold KdTree.searchNearest searchNearestRoot
    rw [he]
  · rcases hf with rfl | hf
    · left
      have := hp'.length_eq
      simpa using this
    · exact .inr hf

/-- C144: with a larger ratio, the approximate `search_nn` reports the distance zero. -/
theorem c144_nn_zero (h : KdTree.make tag M N pts n o fuel = .ok T) (hn : 0 < n)
    (hbig : N.big.1 = I.hi) (q : Pt I.F d) {e : I.F} (he : 2 ≤ e.1) (nn : Neighbor I.F) :
    (T.searchNnApprox q e nn).distance = 0 ∧ (T.searchNnApprox q e nn).index < n := by
  obtain ⟨vis, _, hlt, hv, hf⟩ := traversal_full h q (approxNnVisitor e) (nnInit T.num nn)
  obtain ⟨_, _, hN, _, _, _⟩ := KdTree.make_ok h
  have hvis : ∀ (l : List Nat) (dist : Nat → I.F) (s : Neighbor I.F),
      visitAll (approxNnVisitor e) dist l s = visitAll nnVisitor (fun _ => 0) l s := by
    intro l dist s
    unfold visitAll approxNnVisitor nnVisitor
    simp only [inv_zero he, mul_zero']
  have hpos : (0 : I.F) < N.big := by
    rw [lt_iff, hbig, zero_val]
    have := e.2.2
    omega
  have hne : vis ≠ [] := by
    rintro rfl
    rcases hf with hf | ⟨pre, hp, x, hx⟩
    · simp at hf; omega
    · rw [List.prefix_nil.1 hp] at hx
      have hx' : T.num.big < x := hx
      rw [hN, lt_iff, hbig] at hx'
      have := x.2.2
      omega
  unfold KdTree.searchNnApprox
  rw [hv, hvis]
  rcases nn_visitAll (fun _ => (0 : I.F)) vis (nnInit T.num nn) with ⟨_, h2⟩ | ⟨i, hi, h1, _, _⟩
  · obtain ⟨a, ha⟩ := List.exists_mem_of_ne_nil vis hne
    have h3 : T.num.big ≤ 0 := h2 a ha
    rw [hN] at h3
    exact absurd hpos (not_lt.2 h3)
  · rw [h1]
    exact ⟨rfl, hlt i hi⟩

/-- C144: with a larger ratio, all distances that the approximate `search_knn` reports are zero. -/
theorem c144_knn_zero (h : KdTree.make tag M N pts n o fuel = .ok T) (hn : 0 < n)
    (hbig : N.big.1 = I.hi) (q : Pt I.F d) {e : I.F} (he : 2 ≤ e.1) (k : Nat) (hk : 0 < k)
    (prior : List (Neighbor I.F)) :
    ∃ out, T.searchKnnApprox q k e prior = .ok out ∧ out.length = min k n ∧ (out.map Neighbor.index).Nodup ∧
      ∀ x ∈ out, x.index < n ∧ x.distance = 0 := by
  have hTn : T.n = n := (KdTree.make_ok h).2.2.2.2.1
  have hlen := resize_length (min k T.n) prior
  obtain ⟨init, hi, hil, hlast, _, _, hinv⟩ := knnInit_inv T.num (KdTree.resize (min k T.n) prior)
    (by rw [hlen]; omega)
  rw [hlen] at hil
  obtain ⟨vis, hnd, hlt, hv, hf⟩ := traversal_full h q (approxKnnVisitor T.num e) ⟨init, 0⟩
  obtain ⟨_, _, hN, _, _, _⟩ := KdTree.make_ok h
  have hvis : ∀ (l : List Nat) (dist : Nat → I.F) (s : KnnState I.F),
      visitAll (approxKnnVisitor T.num e) dist l s = visitAll (knnVisitor T.num) (fun _ => 0) l s := by
    intro l dist s
    unfold visitAll approxKnnVisitor knnVisitor
    simp only [inv_zero he, mul_zero']
  have hpos : (0 : I.F) < T.num.big := by
    rw [hN, lt_iff, hbig, zero_val]
    have := e.2.2
    omega
  obtain ⟨L, R, hL⟩ := knn_visitAll T.num (fun _ => (0 : I.F)) init hlast vis (fun _ _ => hpos) hinv
  rw [List.nil_append] at hL
  have hmany : init.length ≤ vis.length := by
    rcases hf with hf | ⟨pre, hp, x, hx⟩
    · omega
    · obtain ⟨L', R', hL'⟩ := knn_visitAll T.num (fun _ => (0 : I.F)) init hlast pre (fun _ _ => hpos) hinv
      rw [List.nil_append] at hL'
      by_contra hc
      have h1 := hL'.perm.length_eq
      rw [List.length_append, List.length_map] at h1
      have h2 := hp.length_le
      have h3 : knnMax T.num (visitAll (approxKnnVisitor T.num e) (fun i => M.dist q (pts i)) pre ⟨init, 0⟩) < x := hx
      rw [hvis, knnMax_not_full hL' hlast (by omega), hN, lt_iff, hbig] at h3
      have := x.2.2
      omega
  have hfull : L.length = init.length := by
    by_cases hR : R = []
    · have h1 := hL.perm.length_eq
      have h2 := hL.le
      rw [hR, List.append_nil, List.length_map] at h1
      omega
    · exact hL.full hR
  refine ⟨L, ?_, by rw [hfull, hil, hTn], ?_, ?_⟩
  · unfold KdTree.searchKnnApprox KdTree.searchKnnApproxRange
    rw [hi]
    simp only [Outcome.bind, Outcome.ok.injEq]
    rw [hv, hvis, hL.buf, hfull, List.drop_length, List.append_nil]
  · have h1 : ((L ++ R).map Neighbor.index).Perm vis := by
      have := hL.perm.map Neighbor.index
      simpa [Function.comp_def] using this
    have h3 := h1.nodup_iff.2 hnd
    rw [List.map_append] at h3
    exact (List.nodup_append.1 h3).1
  · intro a ha
    have := hL.perm.subset (List.mem_append_left R ha)
    obtain ⟨i, hi, rfl⟩ := List.mem_map.1 this
    exact ⟨hlt i hi, rfl⟩

end

/-- Two points on the line, the far one first. -/
def farFirst : Nat → Pt int32.F 1
  | 0 => ![int32.ofInt 1000000]
  | _ => ![int32.ofInt 1]

/-- The promise of search_visitor.hpp:160-163 does not hold for integers: an approximate nearest neighbour is to be
farther than the true one by a factor of `e = 2` at most, and is so by a factor of a million. -/
theorem c144_ratio_false : ∃ T, KdTree.make (euclideanTag int32.F 1) (metricL1 int32.F 1) int32.num farFirst 2
      (Ref.optsMedian int32.F 1) 10 = .ok T ∧
    (T.searchNnApprox ![int32.ofInt 0] (int32.ofInt 2) ⟨0, 0⟩).index = 0 ∧
    Spec.l1 (exactPt (I := int32) ![int32.ofInt 0]) (exactPt (farFirst 0)) = 1000000 ∧
    Spec.l1 (exactPt (I := int32) ![int32.ofInt 0]) (exactPt (farFirst 1)) = 1 := by
  obtain ⟨T, h1, h2⟩ := Outcome.exists_of_check (x := KdTree.make (euclideanTag int32.F 1)
    (metricL1 int32.F 1) int32.num farFirst 2 (Ref.optsMedian int32.F 1) 10)
    (p := fun T => (T.searchNnApprox ![int32.ofInt 0] (int32.ofInt 2) ⟨0, 0⟩).index = 0) (by decide +kernel)
  exact ⟨T, h1, of_decide_eq_true h2, by decide +kernel, by decide +kernel⟩

/-- Both points within the radius, none is returned; two neighbours at distance zero. -/
example : ∃ T, KdTree.make (euclideanTag int32.F 1) (metricL1 int32.F 1) int32.num farFirst 2
      (Ref.optsMedian int32.F 1) 10 = .ok T ∧
    (∀ sorter prior sort,
      T.searchRadiusApprox sorter ![int32.ofInt 0] (int32.ofInt 2000000) (int32.ofInt 3) prior sort = []) ∧
    ∃ out, T.searchKnnApprox ![int32.ofInt 0] 7 (int32.ofInt 3) [] = .ok out ∧ out.length = 2 ∧
      ∀ x ∈ out, x.distance = 0 := by
  obtain ⟨T, h1, -⟩ := Outcome.exists_of_check (x := KdTree.make (euclideanTag int32.F 1)
    (metricL1 int32.F 1) int32.num farFirst 2 (Ref.optsMedian int32.F 1) 10) (p := fun _ => true) (by decide +kernel)
  obtain ⟨out, h2, h3, _, h4⟩ := c144_knn_zero h1 (by decide) rfl ![int32.ofInt 0] (e := int32.ofInt 3)
    (by decide +kernel) 7 (by decide) []
  exact ⟨T, h1, fun sorter prior sort => c144_radius_empty h1 _ (by decide +kernel) sorter _ prior sort,
    out, h2, h3, fun x hx => (h4 x hx).2⟩

end Props

end Pico
