import Verif.Proof.PointOrder
import Verif.Props.Builder
import Verif.Props.Query
import Verif.Ref

/-!
# C145: the order of the points and the standard library

Two trees over the same points in different orders, built with different implementations of `std::partition` and
`std::nth_element`. No law of arithmetic is used.
-/

set_option linter.unusedSectionVars false

namespace Pico.Props

open Spec

/-- The first `n` points are the same, in some order. -/
def SamePoints {α : Type} {d : Nat} (pts pts' : Nat → Pt α d) (n : Nat) : Prop :=
  ((List.range n).map pts).Perm ((List.range n).map pts')

/-- The points that are looked at and given to the visitor are the same, in some order. -/
structure SameSeen {α : Type} {d : Nat} (pts pts' : Nat → Pt α d) (n : Nat) (l l' : List Nat) : Prop where
  perm : (l.map pts).Perm (l'.map pts')
  left : ∀ i ∈ l, i < n
  right : ∀ i ∈ l', i < n

section
variable {α : Type} [LinearOrder α] [Zero α] [Add α] [Sub α] {d : Nat} {β σ : Type} {tag : SpaceTag α d β}
  {M : Metric α d} {N : Num α} {pts pts' : Nat → Pt α d} {n : Nat} {o : BuildOpts α d} {fuel : Nat} {T T' : KdTree α d β}

/-- The trees have the same nodes, and each leaf holds the same points. -/
structure SameNodes (T T' : KdTree α d β) : Prop where
  root : T'.data.root = T.data.root
  box : T'.data.rootBox = T.data.rootBox
  leaves : ∀ r ∈ ranges T.data.root, ((slice T.data.indices r.1 r.2).map T.pts).Perm
    ((slice T'.data.indices r.1 r.2).map T'.pts)

/-- C145 (construction): with the midpoint rule, or if points that agree in a coordinate are equal, the points in another
order and another standard library give the same nodes (boxes, split dimensions, index ranges), and the same points in
each leaf. The construction succeeds for both or for neither. -/
theorem c145_tree (hp : SamePoints pts pts' n) (hU : o.rule = .midpoint ∨ Untied ((List.range n).map pts)) (S' : Std)
    (h : KdTree.make tag M N pts n o fuel = .ok T) :
    ∃ T', KdTree.make tag M N pts' n { o with S := S' } fuel = .ok T' ∧ SameNodes T T' ∧
      T'.leafRanges = T.leafRanges := by
  have hbox : boxFromBounds N pts' n o.bounds = boxFromBounds N pts n o.bounds := by
    cases o.bounds with
    | fromSpace => exact (foldBox_same hp _).symm
    | given mn mx => rfl
  unfold KdTree.make buildTree at h ⊢
  dsimp only at h ⊢
  change ((createNode (KdTree.cfg tag N pts o) fuel 0 0 (List.range n) (boxFromBounds N pts n o.bounds)).bind _).bind _ = _
    at h
  cases hc : createNode (KdTree.cfg tag N pts o) fuel 0 0 (List.range n) (boxFromBounds N pts n o.bounds) with
  | ub => simp [hc, Outcome.bind] at h
  | oof => simp [hc, Outcome.bind] at h
  | ok res =>
    obtain ⟨t, out, b⟩ := res
    simp only [hc, Outcome.bind, Outcome.ok.injEq] at h
    subst h
    obtain ⟨out', h1, h2, h3, h4⟩ := createNode_same (C := KdTree.cfg tag N pts o) (pts' := pts') (S' := S') fuel 0 0 (List.range n) (List.range n) _ t out b hp hU hc
    change ∃ T', ((createNode (KdTree.cfg tag N pts' { o with S := S' }) fuel 0 0 (List.range n)
      (boxFromBounds N pts' n o.bounds)).bind _).bind _ = _ ∧ _
    rw [hbox]
    change createNode (KdTree.cfg tag N pts' { o with S := S' }) fuel 0 0 (List.range n)
      (boxFromBounds N pts n o.bounds) = _ at h1
    rw [h1]
    refine ⟨_, rfl, ⟨rfl, hbox, fun r hr => ?_⟩, rfl⟩
    have := h4 [] [] [] [] rfl rfl r hr
    simp only [List.nil_append, List.append_nil] at this
    exact this

/-- C145 (any visitor): if the bound of the visitor depends only on the points it was given, not on their order, then the
same points are looked at in both trees. -/
theorem c145_search (h : KdTree.make tag M N pts n o fuel = .ok T) {o' : BuildOpts α d} {fuel' : Nat}
    (h' : KdTree.make tag M N pts' n o' fuel' = .ok T') (hs : SameNodes T T') (q : Pt α d) (V : Visitor α σ) (s s' : σ)
    (hmax : ∀ l l', SameSeen pts pts' n l l' → V.max (visitAll V (fun i => M.dist q (pts i)) l s) =
      V.max (visitAll V (fun i => M.dist q (pts' i)) l' s')) :
    SameSeen pts pts' n (T.looked q V s) (T'.looked q V s') ∧
      T.searchNearest q V s = visitAll V (fun i => M.dist q (pts i)) (T.looked q V s) s ∧
      T'.searchNearest q V s' = visitAll V (fun i => M.dist q (pts' i)) (T'.looked q V s') s' := by
  obtain ⟨e1, e2, e3, e4, e5, -⟩ := KdTree.make_ok h
  obtain ⟨e1', e2', e3', e4', e5', -⟩ := KdTree.make_ok h'
  have hin : ∀ {T : KdTree α d β} {pts : Nat → Pt α d} {o : BuildOpts α d} {fuel : Nat},
      KdTree.make tag M N pts n o fuel = .ok T → ∀ b e, ∀ i ∈ slice T.data.indices b e, i < n := by
    intro T pts o fuel h b e i hi
    have hp := (c16_partition h).1
    exact List.mem_range.1 (hp.subset (List.mem_of_mem_drop (List.mem_of_mem_take hi)))
  have hrec : ∀ (dist : Nat → α) (l : List Nat) (s : σ), visitAll (recording V) dist l (s, []) =
      (visitAll V dist l s, l) := by
    intro dist l s
    rw [visitAll_recording, List.nil_append]
  have hrmax : ∀ x : σ × List Nat, (recording V).max x = V.max x.1 := fun _ => rfl
  obtain ⟨off, v, v', hv, g1, g2⟩ := search_same (splitDim := T.tag.splitDim) (pick := T.tag.pick T.metric q)
    (V := recording V) (dist := fun i => M.dist q (pts i)) (dist' := fun i => M.dist q (pts' i))
    (ind := T.data.indices) (ind' := T'.data.indices) (s := (s, [])) (s' := (s', [])) (Q := SameSeen pts pts' n)
    (fun {a a' b b'} ha hb => ⟨by
        rw [List.map_append, List.map_append]; exact ha.perm.append hb.perm,
      fun i hi => (List.mem_append.1 hi).elim (ha.left i) (hb.left i),
      fun i hi => (List.mem_append.1 hi).elim (ha.right i) (hb.right i)⟩)
    (fun l l' hl => by rw [hrmax, hrmax, hrec, hrec]; exact hmax l l' hl) T.data.root
    (fun r hr => ⟨by have := hs.leaves r hr; rwa [e4, e4'] at this, hin h _ _, hin h' _ _⟩) 0 (fun _ => 0) [] []
    ⟨List.Perm.refl _, nofun, nofun⟩
  have k1 : T.searchNearest q (recording V) (s, []) = (visitAll V (fun i => M.dist q (pts i)) v s, v) := by
    unfold KdTree.searchNearest searchNearestRoot
    rw [← hrec, e4, e2]
    have := congrArg Prod.snd g1
    rw [e2] at this
    exact this
  have k2 : T'.searchNearest q (recording V) (s', []) = (visitAll V (fun i => M.dist q (pts' i)) v' s', v') := by
    unfold KdTree.searchNearest searchNearestRoot
    rw [← hrec, e4', e2', hs.root, e1', ← e1]
    have := congrArg Prod.snd g2
    rw [e2] at this
    exact this
  have l1 : T.looked q V s = v := by unfold KdTree.looked; rw [k1]
  have l2 : T'.looked q V s' = v' := by unfold KdTree.looked; rw [k2]
  refine ⟨by rw [l1, l2]; exact hv, ?_, ?_⟩
  · rw [← T.searchNearest_recording, k1, l1]
  · rw [← T'.searchNearest_recording, k2, l2]

/-! ### The visitors of the library -/

theorem nn_same {dist dist' : Nat → α} {l l' : List Nat} {s s' : Neighbor α} (hp : (l.map dist).Perm (l'.map dist'))
    (hs : s.distance = s'.distance) :
    (visitAll nnVisitor dist l s).distance = (visitAll nnVisitor dist' l' s').distance := by
  have fwd : ∀ i ∈ l, ∃ j ∈ l', dist' j = dist i := fun i hi => List.mem_map.1 (hp.subset (List.mem_map_of_mem hi))
  have bwd : ∀ j ∈ l', ∃ i ∈ l, dist i = dist' j := fun j hj => List.mem_map.1 (hp.symm.subset (List.mem_map_of_mem hj))
  rcases nn_visitAll dist l s with ⟨h1, h2⟩ | ⟨i, hi, h1, h2, h3⟩ <;>
    rcases nn_visitAll dist' l' s' with ⟨k1, k2⟩ | ⟨j, hj, k1, k2, k3⟩ <;> rw [h1, k1]
  · exact hs
  · obtain ⟨i, hi, e⟩ := bwd j hj
    have := h2 i hi
    rw [e, hs] at this
    exact absurd k2 (not_lt.2 this)
  · obtain ⟨j, hj, e⟩ := fwd i hi
    have := k2 j hj
    rw [e, ← hs] at this
    exact absurd h2 (not_lt.2 this)
  · obtain ⟨j', hj', e⟩ := fwd i hi
    obtain ⟨i', hi', e'⟩ := bwd j hj
    refine le_antisymm ?_ ?_
    · show dist i ≤ dist' j
      rw [← e']; exact h3 i' hi'
    · show dist' j ≤ dist i
      rw [← e]; exact k3 j' hj'

theorem knn_inv_same {init init' seen seen' : List (Neighbor α)} {s s' : KnnState α} {L R L' R' : List (Neighbor α)}
    (h : KnnInv N init seen s L R) (h' : KnnInv N init' seen' s' L' R') (hi : init.length = init'.length)
    (hp : (seen.map Neighbor.distance).Perm (seen'.map Neighbor.distance)) :
    L.map Neighbor.distance = L'.map Neighbor.distance := by
  have hlen : L.length = L'.length := by
    have h1 := h.perm.length_eq
    have h2 := h'.perm.length_eq
    have h3 := hp.length_eq
    simp only [List.length_append, List.length_map] at h1 h2 h3
    have h4 := h.le
    have h5 := h'.le
    by_cases hR : R = []
    · by_cases hR' : R' = []
      · rw [hR] at h1; rw [hR'] at h2
        simp only [List.length_nil] at h1 h2
        omega
      · have := h'.full hR'
        rw [hR] at h1
        simp only [List.length_nil] at h1
        omega
    · have := h.full hR
      by_cases hR' : R' = []
      · rw [hR'] at h2
        simp only [List.length_nil] at h2
        omega
      · have := h'.full hR'
        omega
  have hk := keys_of_split Neighbor.distance (((h.perm.map _).trans hp).trans (h'.perm.map _).symm) hlen h.rejected
    h'.rejected
  rw [← eq_mergeSort (List.pairwise_map.2 h.sorted) (List.Perm.refl _),
    ← eq_mergeSort (List.pairwise_map.2 h'.sorted) (List.Perm.refl _)] at hk
  exact hk

theorem knn_max_same {init init' seen seen' : List (Neighbor α)} {s s' : KnnState α} {L R L' R' : List (Neighbor α)}
    (h : KnnInv N init seen s L R) (h' : KnnInv N init' seen' s' L' R') (hi : init.length = init'.length)
    (hpos : 0 < init.length) (hlast : ∃ x, init.getLast? = some x ∧ x.distance = N.big)
    (hlast' : ∃ x, init'.getLast? = some x ∧ x.distance = N.big)
    (hp : (seen.map Neighbor.distance).Perm (seen'.map Neighbor.distance)) : knnMax N s = knnMax N s' := by
  have he := knn_inv_same h h' hi hp
  have hl : L.length = L'.length := by simpa using congrArg List.length he
  by_cases hf : L.length = init.length
  · obtain ⟨A, x, rfl, h1⟩ := knnMax_full h hf hpos
    obtain ⟨A', x', rfl, h2⟩ := knnMax_full h' (by omega) (by omega)
    rw [h1, h2]
    rw [List.map_append, List.map_append] at he
    simpa using (List.append_inj' he rfl).2
  · have := h.le
    rw [knnMax_not_full h hlast (by omega), knnMax_not_full h' hlast' (by omega)]

/-! ### Searches -/

theorem SameSeen.dist (h : SameSeen pts pts' n l l') (g : Pt α d → α) :
    (l.map fun i => g (pts i)).Perm (l'.map fun i => g (pts' i)) := by
  have := h.perm.map g
  simpa only [List.map_map, Function.comp_def] using this

variable (h : KdTree.make tag M N pts n o fuel = .ok T) {o' : BuildOpts α d} {fuel' : Nat}
    (h' : KdTree.make tag M N pts' n o' fuel' = .ok T') (hs : SameNodes T T') (q : Pt α d)
include h h' hs

/-- C145 (nearest neighbor): both trees report the same distance, after computing the same number of distances. -/
theorem c145_nn (nn nn' : Neighbor α) : (T'.searchNn q nn').distance = (T.searchNn q nn).distance ∧
    (T'.looked q nnVisitor (nnInit N nn')).length = (T.looked q nnVisitor (nnInit N nn)).length := by
  have hN := (KdTree.make_ok h).2.2.1
  have hN' := (KdTree.make_ok h').2.2.1
  obtain ⟨g1, g2, g3⟩ := c145_search h h' hs q nnVisitor (nnInit N nn) (nnInit N nn')
    (fun l l' hl => nn_same (hl.dist (M.dist q)) rfl)
  refine ⟨?_, by simpa using g1.perm.length_eq.symm⟩
  unfold KdTree.searchNn
  rw [hN, hN', g2, g3]
  exact (nn_same (s := nnInit N nn) (s' := nnInit N nn') (g1.dist (M.dist q)) rfl).symm

/-- C145 (nearest neighbor): if different points have different computed distances, both trees report the same point. -/
theorem c145_nn_point (nn nn' : Neighbor α)
    (hd : ∀ i < n, ∀ j < n, M.dist q (pts i) = M.dist q (pts' j) → pts i = pts' j)
    (hfound : (T.searchNn q nn).distance ≠ N.big) :
    (T.searchNn q nn).index < n ∧ (T'.searchNn q nn').index < n ∧
      pts' (T'.searchNn q nn').index = pts (T.searchNn q nn).index := by
  have e := (c145_nn h h' hs q nn nn').1
  obtain ⟨h1, h2, -⟩ := c44_nn_partial h q nn hfound
  obtain ⟨k1, k2, -⟩ := c44_nn_partial h' q nn' (by rw [e]; exact hfound)
  exact ⟨h1, k1, (hd _ h1 _ k1 (by rw [← h2, ← k2, e])).symm⟩

/-- C145 (radius search): the same points with the same distances. -/
theorem c145_radius (sorter sorter' : StdSort (Neighbor α)) (r : α) (prior prior' : List (Neighbor α)) (sort : Bool) :
    ((T.searchRadius sorter q r prior sort).map fun a => (pts a.index, a.distance)).Perm
      ((T'.searchRadius sorter' q r prior' sort).map fun a => (pts' a.index, a.distance)) := by
  obtain ⟨g1, g2, g3⟩ := c145_search h h' hs q (radiusVisitor r) (radiusInit prior) (radiusInit prior')
    (fun l l' hl => rfl)
  rw [radius_visitAll] at g2 g3
  have hperm : ((T.searchNearest q (radiusVisitor r) (radiusInit prior)).map fun a => (pts a.index, a.distance)).Perm
      ((T'.searchNearest q (radiusVisitor r) (radiusInit prior')).map fun a => (pts' a.index, a.distance)) := by
    rw [g2, g3]
    have key : ∀ (p : Nat → Pt α d) (l : List Nat),
        ((l.map fun i => (⟨i, M.dist q (p i)⟩ : Neighbor α)).filter fun x => decide (x.distance < r)).map
          (fun a => (p a.index, a.distance)) =
        ((l.map p).filter fun x => decide (M.dist q x < r)).map fun x => (x, M.dist q x) := by
      intro p l
      induction l with
      | nil => rfl
      | cons a l ih =>
        simp only [List.map_cons, List.filter_cons]
        split_ifs <;> simp [ih]
    show (List.map _ ([] ++ _)).Perm (List.map _ ([] ++ _))
    rw [List.nil_append, List.nil_append, key, key]
    exact (g1.perm.filter _).map _
  unfold KdTree.searchRadius
  dsimp only
  cases sort with
  | false => exact hperm
  | true =>
    simp only [if_true]
    exact (((sorter.sort_perm _ _ strictWeak_neighborLt).map _).trans hperm).trans
      ((sorter'.sort_perm _ _ strictWeak_neighborLt).map _).symm

/-- C145 (k nearest neighbors): the same distances. -/
theorem c145_knn (hn : 0 < n) (hbig : ∀ i < n, M.dist q (pts i) < N.big) (k : Nat) (hk : 0 < k)
    (prior : List (Neighbor α)) :
    ∃ out out', T.searchKnn q k prior = .ok out ∧ T'.searchKnn q k prior = .ok out' ∧
      out'.map Neighbor.distance = out.map Neighbor.distance := by
  obtain ⟨-, -, hN, -, hn1, -⟩ := KdTree.make_ok h
  obtain ⟨-, -, hN', -, hn2, -⟩ := KdTree.make_ok h'
  have hlen : (KdTree.resize (min k n) prior).length = min k n := resize_length _ _
  obtain ⟨init, i1, i2, i3, -, -, i6⟩ := knnInit_inv N (KdTree.resize (min k n) prior) (by omega)
  have hbig' : ∀ l l', SameSeen pts pts' n l l' → ∀ i ∈ l', M.dist q (pts' i) < N.big := by
    intro l l' hl i hi
    obtain ⟨j, hj, e⟩ := List.mem_map.1 (hl.perm.symm.subset (List.mem_map_of_mem hi))
    rw [← e]
    exact hbig j (hl.left j hj)
  have hmap : ∀ (p : Nat → Pt α d) (l : List Nat), ((l.map fun i => (⟨i, M.dist q (p i)⟩ : Neighbor α)).map
      Neighbor.distance) = l.map fun i => M.dist q (p i) := fun p l => by
    rw [List.map_map]; rfl
  obtain ⟨g1, g2, g3⟩ := c145_search h h' hs q (knnVisitor N) ⟨init, 0⟩ ⟨init, 0⟩ (fun l l' hl => by
    obtain ⟨L, R, j1⟩ := knn_visitAll N (fun i => M.dist q (pts i)) init i3 l (fun i hi => hbig i (hl.left i hi)) i6
    obtain ⟨L', R', j2⟩ := knn_visitAll N (fun i => M.dist q (pts' i)) init i3 l' (hbig' l l' hl) i6
    refine knn_max_same j1 j2 rfl (by omega) i3 i3 ?_
    rw [List.nil_append, List.nil_append, hmap, hmap]
    exact hl.dist (M.dist q))
  obtain ⟨L, R, j1⟩ := knn_visitAll N (fun i => M.dist q (pts i)) init i3 _ (fun i hi => hbig i (g1.left i hi)) i6
  obtain ⟨L', R', j2⟩ := knn_visitAll N (fun i => M.dist q (pts' i)) init i3 _ (hbig' _ _ g1) i6
  have he := knn_inv_same j1 j2 rfl (by
    rw [List.nil_append, List.nil_append, hmap, hmap]
    exact g1.dist (M.dist q))
  have hl : L.length = L'.length := by simpa using congrArg List.length he
  refine ⟨L ++ init.drop L.length, L' ++ init.drop L'.length, ?_, ?_, ?_⟩
  · unfold KdTree.searchKnn KdTree.searchKnnRange
    rw [hn1, hN, i1]
    show Outcome.ok _ = _
    rw [g2, j1.buf]
  · unfold KdTree.searchKnn KdTree.searchKnnRange
    rw [hn2, hN', i1]
    show Outcome.ok _ = _
    rw [g3, j2.buf]
  · rw [List.map_append, List.map_append, he, hl]

end

section Approximate
variable {α : Type} [LinearOrder α] [Zero α] [One α] [Add α] [Sub α] [Mul α] [Div α] {d : Nat} {β : Type}
  {tag : SpaceTag α d β} {M : Metric α d} {N : Num α} {pts pts' : Nat → Pt α d} {n : Nat} {o o' : BuildOpts α d}
  {fuel fuel' : Nat} {T T' : KdTree α d β}

/-- C145 (approximate nearest neighbor): the same stored distance, although the promise of the search leaves a choice. -/
theorem c145_nn_approx (h : KdTree.make tag M N pts n o fuel = .ok T)
    (h' : KdTree.make tag M N pts' n o' fuel' = .ok T') (hs : SameNodes T T') (q : Pt α d) (e : α)
    (nn nn' : Neighbor α) : (T'.searchNnApprox q e nn').distance = (T.searchNnApprox q e nn).distance := by
  have hN := (KdTree.make_ok h).2.2.1
  have hN' := (KdTree.make_ok h').2.2.1
  have key : ∀ l l', SameSeen pts pts' n l l' →
      (visitAll (approxNnVisitor e) (fun i => M.dist q (pts i)) l (nnInit N nn)).distance =
        (visitAll (approxNnVisitor e) (fun i => M.dist q (pts' i)) l' (nnInit N nn')).distance := fun l l' hl =>
    nn_same (dist := fun i => M.dist q (pts i) * (1 / e)) (dist' := fun i => M.dist q (pts' i) * (1 / e))
      (hl.dist fun x => M.dist q x * (1 / e)) rfl
  obtain ⟨g1, g2, g3⟩ := c145_search h h' hs q (approxNnVisitor e) (nnInit N nn) (nnInit N nn') key
  unfold KdTree.searchNnApprox
  rw [hN, hN', g2, g3]
  exact (key _ _ g1).symm

/-- C145 (approximate radius search): the same points with the same stored distances. -/
theorem c145_radius_approx (h : KdTree.make tag M N pts n o fuel = .ok T)
    (h' : KdTree.make tag M N pts' n o' fuel' = .ok T') (hs : SameNodes T T') (q : Pt α d)
    (sorter sorter' : StdSort (Neighbor α)) (r e : α) (prior prior' : List (Neighbor α)) (sort : Bool) :
    ((T.searchRadiusApprox sorter q r e prior sort).map fun a => (pts a.index, a.distance)).Perm
      ((T'.searchRadiusApprox sorter' q r e prior' sort).map fun a => (pts' a.index, a.distance)) := by
  obtain ⟨g1, g2, g3⟩ := c145_search h h' hs q (approxRadiusVisitor e r) (radiusInit prior) (radiusInit prior')
    (fun l l' hl => rfl)
  have key : ∀ (p : Nat → Pt α d) (l : List Nat) (s : List (Neighbor α)),
      (visitAll (approxRadiusVisitor e r) (fun i => M.dist q (p i)) l s).map (fun a => (p a.index, a.distance)) =
        s.map (fun a => (p a.index, a.distance)) ++
          ((l.map p).filter fun x => decide (M.dist q x * (1 / e) < r * (1 / e))).map
            fun x => (x, M.dist q x * (1 / e)) := by
    intro p l s
    change (visitAll (radiusVisitor (r * (1 / e))) (fun i => M.dist q (p i) * (1 / e)) l s).map _ = _
    rw [radius_visitAll, List.map_append]
    congr 1
    induction l with
    | nil => rfl
    | cons a l ih =>
      simp only [List.map_cons, List.filter_cons]
      split_ifs <;> simp [ih]
  have hperm : ((T.searchNearest q (approxRadiusVisitor e r) (radiusInit prior)).map
        fun a => (pts a.index, a.distance)).Perm
      ((T'.searchNearest q (approxRadiusVisitor e r) (radiusInit prior')).map
        fun a => (pts' a.index, a.distance)) := by
    rw [g2, g3, key, key]
    show List.Perm ([] ++ _) ([] ++ _)
    rw [List.nil_append, List.nil_append]
    exact (g1.perm.filter _).map _
  unfold KdTree.searchRadiusApprox
  dsimp only
  cases sort with
  | false => exact hperm
  | true =>
    simp only [if_true]
    exact (((sorter.sort_perm _ _ strictWeak_neighborLt).map _).trans hperm).trans
      ((sorter'.sort_perm _ _ strictWeak_neighborLt).map _).symm

/-- C145 (approximate k nearest neighbors): the same stored distances. -/
theorem c145_knn_approx (h : KdTree.make tag M N pts n o fuel = .ok T)
    (h' : KdTree.make tag M N pts' n o' fuel' = .ok T') (hs : SameNodes T T') (q : Pt α d) (hn : 0 < n) (e : α)
    (hbig : ∀ i < n, M.dist q (pts i) * (1 / e) < N.big) (k : Nat) (hk : 0 < k) (prior : List (Neighbor α)) :
    ∃ out out', T.searchKnnApprox q k e prior = .ok out ∧ T'.searchKnnApprox q k e prior = .ok out' ∧
      out'.map Neighbor.distance = out.map Neighbor.distance := by
  obtain ⟨-, -, hN, -, hn1, -⟩ := KdTree.make_ok h
  obtain ⟨-, -, hN', -, hn2, -⟩ := KdTree.make_ok h'
  have hlen : (KdTree.resize (min k n) prior).length = min k n := resize_length _ _
  obtain ⟨init, i1, i2, i3, -, -, i6⟩ := knnInit_inv N (KdTree.resize (min k n) prior) (by omega)
  have hbig' : ∀ l l', SameSeen pts pts' n l l' → ∀ i ∈ l', M.dist q (pts' i) * (1 / e) < N.big := by
    intro l l' hl i hi
    obtain ⟨j, hj, e⟩ := List.mem_map.1 (hl.perm.symm.subset (List.mem_map_of_mem hi))
    rw [← e]
    exact hbig j (hl.left j hj)
  have hmap : ∀ (p : Nat → Pt α d) (l : List Nat), ((l.map fun i => (⟨i, M.dist q (p i) * (1 / e)⟩ : Neighbor α)).map
      Neighbor.distance) = l.map fun i => M.dist q (p i) * (1 / e) := fun p l => by
    rw [List.map_map]; rfl
  obtain ⟨g1, g2, g3⟩ := c145_search h h' hs q (approxKnnVisitor N e) ⟨init, 0⟩ ⟨init, 0⟩ (fun l l' hl => by
    obtain ⟨L, R, j1⟩ := knn_visitAll N (fun i => M.dist q (pts i) * (1 / e)) init i3 l
      (fun i hi => hbig i (hl.left i hi)) i6
    obtain ⟨L', R', j2⟩ := knn_visitAll N (fun i => M.dist q (pts' i) * (1 / e)) init i3 l' (hbig' l l' hl) i6
    refine knn_max_same j1 j2 rfl (by omega) i3 i3 ?_
    rw [List.nil_append, List.nil_append, hmap, hmap]
    exact hl.dist fun x => M.dist q x * (1 / e))
  obtain ⟨L, R, j1⟩ := knn_visitAll N (fun i => M.dist q (pts i) * (1 / e)) init i3 _
    (fun i hi => hbig i (g1.left i hi)) i6
  obtain ⟨L', R', j2⟩ := knn_visitAll N (fun i => M.dist q (pts' i) * (1 / e)) init i3 _ (hbig' _ _ g1) i6
  have he := knn_inv_same j1 j2 rfl (by
    rw [List.nil_append, List.nil_append, hmap, hmap]
    exact g1.dist fun x => M.dist q x * (1 / e))
  have hl : L.length = L'.length := by simpa using congrArg List.length he
  refine ⟨L ++ init.drop L.length, L' ++ init.drop L'.length, ?_, ?_, ?_⟩
  · unfold KdTree.searchKnnApprox KdTree.searchKnnApproxRange
    rw [hn1, hN, i1]
    show Outcome.ok _ = _
    rw [g2]
    exact congrArg _ j1.buf
  · unfold KdTree.searchKnnApprox KdTree.searchKnnApproxRange
    rw [hn2, hN', i1]
    show Outcome.ok _ = _
    rw [g3]
    exact congrArg _ j2.buf
  · rw [List.map_append, List.map_append, he, hl]

end Approximate

/-! ### Ties -/

/-- Six points of a grid, two of them equal. -/
def gridSix : Nat → Pt ℚ 2 := ![![1, 3], ![0, 3], ![1, 0], ![2, 1], ![0, 3], ![3, 1]] ∘ Fin.ofNat 6

/-- C145 is false with ties: points with a common coordinate in the reverse order give other nodes, and an approximate
search another distance. -/
theorem c145_ties_false : ∃ T T', KdTree.make (euclideanTag ℚ 2) (metricL2Sq ℚ 2) Ref.ratNum gridSix 6
      (Ref.optsMedian ℚ 2) 20 = .ok T ∧
    KdTree.make (euclideanTag ℚ 2) (metricL2Sq ℚ 2) Ref.ratNum (fun i => gridSix (5 - i)) 6 (Ref.optsMedian ℚ 2) 20 =
      .ok T' ∧ SamePoints gridSix (fun i => gridSix (5 - i)) 6 ∧
    (T.searchNnApprox ![1 / 8, 9 / 16] 4 ⟨0, 0⟩).distance ≠ (T'.searchNnApprox ![1 / 8, 9 / 16] 4 ⟨0, 0⟩).distance := by
  obtain ⟨T, h1, h2⟩ := Outcome.exists_of_check (x := KdTree.make (euclideanTag ℚ 2) (metricL2Sq ℚ 2) Ref.ratNum gridSix 6
      (Ref.optsMedian ℚ 2) 20)
    (p := fun T => decide ((T.searchNnApprox ![1 / 8, 9 / 16] 4 ⟨0, 0⟩).distance = 949 / 1024)) (by decide +kernel)
  obtain ⟨T', h3, h4⟩ := Outcome.exists_of_check (x := KdTree.make (euclideanTag ℚ 2) (metricL2Sq ℚ 2) Ref.ratNum
      (fun i => gridSix (5 - i)) 6 (Ref.optsMedian ℚ 2) 20)
    (p := fun T => decide ((T.searchNnApprox ![1 / 8, 9 / 16] 4 ⟨0, 0⟩).distance = 277 / 1024)) (by decide +kernel)
  refine ⟨T, T', h1, h3, ?_, ?_⟩
  · show List.Perm _ _
    decide +kernel
  · rw [of_decide_eq_true h2, of_decide_eq_true h4]
    norm_num

/-! ### A case -/

/-- Five points without ties, one of them twice. -/
def untiedSix : Nat → Pt ℚ 2 := ![![1, 3], ![0, 5], ![4, 0], ![2, 1], ![0, 5], ![3, 2]] ∘ Fin.ofNat 6

example : SamePoints untiedSix (fun i => untiedSix (5 - i)) 6 ∧ Untied ((List.range 6).map untiedSix) := by
  constructor
  · show List.Perm _ _
    decide +kernel
  · have : ∀ i < 6, ∀ k < 6, ∀ j, untiedSix i j = untiedSix k j → untiedSix i = untiedSix k := by decide +kernel
    intro x hx y hy j e
    obtain ⟨i, hi, rfl⟩ := List.mem_map.1 hx
    obtain ⟨k, hk, rfl⟩ := List.mem_map.1 hy
    exact this i (List.mem_range.1 hi) k (List.mem_range.1 hk) j e

example : ∃ T, KdTree.make (euclideanTag ℚ 2) (metricL2Sq ℚ 2) Ref.ratNum untiedSix 6 (Ref.optsMedian ℚ 2) 20 = .ok T := by
  obtain ⟨T, h1, -⟩ := Outcome.exists_of_check (x := KdTree.make (euclideanTag ℚ 2) (metricL2Sq ℚ 2) Ref.ratNum untiedSix 6
      (Ref.optsMedian ℚ 2) 20) (p := fun _ => true) (by decide +kernel)
  exact ⟨T, h1⟩

end Pico.Props
