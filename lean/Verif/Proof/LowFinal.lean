import Verif.Proof.Exact

/-!
# What the visitors return when the skipped points are excluded by `Low`

`Low x i` says that `x` counts as a lower bound of the distance of point `i`: exactly, up to a factor or up to
a summand. `st i` is the distance the visitor stores for point `i`.
-/

namespace Pico

variable {α : Type} [LinearOrder α] {n : Nat} {N : Num α} {st : Nat → α} {Low : α → Nat → Prop}
  {vis skip : List Nat}

section
variable (hself : ∀ i, Low (st i) i) (hmono : ∀ x y i, x ≤ y → Low y i → Low x i)
  (hp : (vis ++ skip).Perm (List.range n))
include hself hmono hp

theorem low_nn (hbig : ∀ i < n, ¬ Low N.big i) (hn : 0 < n) (nn : Neighbor α)
    (hk : ∀ i ∈ skip, Low (nnVisitor.max (visitAll nnVisitor st vis (nnInit N nn))) i) :
    ∃ i < n, visitAll nnVisitor st vis (nnInit N nn) = ⟨i, st i⟩ ∧ ∀ j < n, Low (st i) j := by
  have hmem := perm_range_mem hp
  rcases nn_visitAll st vis (nnInit N nn) with ⟨g1, g2⟩ | ⟨i, hi, g1, g2, g3⟩
  · exfalso
    rw [g1] at hk
    rcases (hmem 0).1 hn with h0 | h0
    · exact hbig 0 hn (hmono _ _ _ (g2 0 h0) (hself 0))
    · exact hbig 0 hn (hk 0 h0)
  · rw [g1] at hk ⊢
    refine ⟨i, (hmem i).2 (Or.inl hi), rfl, ?_⟩
    intro j hj
    rcases (hmem j).1 hj with hj' | hj'
    · exact hmono _ _ _ (g3 j hj') (hself j)
    · exact hk j hj'

theorem low_knn (hbig : ∀ i < n, ¬ Low N.big i) {buf : List (Neighbor α)} (hb : 0 < buf.length)
    (hbn : buf.length ≤ n) {s : KnnState α} (hs : knnInit N buf = .ok s)
    (hk : ∀ i ∈ skip, Low ((knnVisitor N).max (visitAll (knnVisitor N) st vis s)) i) :
    ∃ out rest : List Nat, (visitAll (knnVisitor N) st vis s).buf = (out.map fun i => ⟨i, st i⟩) ∧
      out.length = buf.length ∧ (out.Pairwise fun i j => st i ≤ st j) ∧ (out ++ rest).Perm (List.range n) ∧
      ∀ i ∈ out, ∀ j ∈ rest, Low (st i) j := by
  have hb0 : ∀ i < n, st i < N.big := fun i hi => by
    by_contra hc
    exact hbig i hi (hmono _ _ _ (not_lt.1 hc) (hself i))
  obtain ⟨init, hi, hlen, hlast, -, -, hinv⟩ := knnInit_inv N buf hb
  rw [hi] at hs
  cases hs
  have hmem := perm_range_mem hp
  obtain ⟨L, R', hL⟩ := knn_visitAll N st init hlast vis (fun i hi => hb0 i ((hmem i).2 (Or.inl hi))) hinv
  rw [List.nil_append] at hL
  have hplen : vis.length + skip.length = n := by
    have := hp.length_eq
    simpa using this
  have hLR : L.length + R'.length = vis.length := by
    have := hL.perm.length_eq
    simpa using this
  change ∀ i ∈ skip, Low (knnMax N (visitAll (knnVisitor N) st vis ⟨init, 0⟩)) i at hk
  have hfull : L.length = init.length := by
    by_contra hc
    have hlt : L.length < init.length := lt_of_le_of_ne hL.le hc
    have hR' : R' = [] := by
      by_contra hc'; exact absurd (hL.full hc') hc
    have hskip : skip = [] := by
      refine List.eq_nil_iff_forall_not_mem.2 fun x hx => ?_
      have := hk x hx
      rw [knnMax_not_full hL hlast hlt] at this
      exact hbig x ((hmem x).2 (Or.inr hx)) this
    subst hR' hskip
    simp only [List.length_nil, Nat.add_zero] at hplen hLR
    omega
  have hgen : ∀ a ∈ L ++ R', a = ⟨a.index, st a.index⟩ := by
    intro a ha
    obtain ⟨i, _, rfl⟩ := List.mem_map.1 (hL.perm.subset ha)
    rfl
  have hmapL : (L.map Neighbor.index).map (fun i => (⟨i, st i⟩ : Neighbor α)) = L := by
    rw [List.map_map]
    conv_rhs => rw [← List.map_id L]
    refine List.map_congr_left fun a ha => ?_
    exact (hgen a (List.mem_append_left _ ha)).symm
  refine ⟨L.map Neighbor.index, R'.map Neighbor.index ++ skip, ?_, ?_, ?_, ?_, ?_⟩
  · rw [hmapL, hL.buf, hfull, List.drop_length, List.append_nil]
  · rw [List.length_map, hfull, hlen]
  · rw [List.pairwise_map]
    refine hL.sorted.imp_of_mem fun {a b} ha hb hab => ?_
    rw [hgen a (List.mem_append_left _ ha), hgen b (List.mem_append_left _ hb)] at hab
    exact hab
  · rw [← List.append_assoc, ← List.map_append]
    refine ((hL.perm.map Neighbor.index).append_right skip).trans ?_
    rw [List.map_map]
    have : (Neighbor.index ∘ fun i => (⟨i, st i⟩ : Neighbor α)) = id := rfl
    rw [this, List.map_id]
    exact hp
  · obtain ⟨L0, z, hz, hmax⟩ := knnMax_full hL hfull (by omega)
    rw [hmax] at hk
    have hsorted := hL.sorted
    rw [hz, List.pairwise_append] at hsorted
    have hlez : ∀ a ∈ L, a.distance ≤ z.distance := by
      intro a ha
      rw [hz] at ha
      rcases List.mem_append.1 ha with ha | ha
      · exact hsorted.2.2 a ha z (by simp)
      · simp only [List.mem_singleton] at ha; rw [ha]
    intro i hi' j hj
    obtain ⟨a, ha, rfl⟩ := List.mem_map.1 hi'
    have ea : a.distance = st a.index := congrArg Neighbor.distance (hgen a (List.mem_append_left _ ha))
    rw [← ea]
    rcases List.mem_append.1 hj with hj | hj
    · obtain ⟨b, hb, rfl⟩ := List.mem_map.1 hj
      have eb : b.distance = st b.index := congrArg Neighbor.distance (hgen b (List.mem_append_right _ hb))
      refine hmono _ _ _ ?_ (hself b.index)
      rw [← eb]
      exact hL.rejected a ha b hb
    · exact hmono _ _ _ (hlez a ha) (hk j hj)

theorem low_radius (r : α) (l : List (Neighbor α)) (hk : ∀ i ∈ skip, Low r i) :
    let out := visitAll (radiusVisitor r) st vis (radiusInit l)
    (out.map Neighbor.index).Nodup ∧ (∀ a ∈ out, a.index < n ∧ a.distance = st a.index ∧ st a.index < r) ∧
      ∀ i < n, ¬ Low r i → ⟨i, st i⟩ ∈ out := by
  intro out
  have hout : out = (vis.map fun i => (⟨i, st i⟩ : Neighbor α)).filter fun x => decide (x.distance < r) := by
    change visitAll (radiusVisitor r) st vis (radiusInit l) = _
    rw [radius_visitAll]
    rfl
  have hmem := perm_range_mem hp
  have hnd : vis.Nodup := by
    have := hp.nodup_iff.2 List.nodup_range
    exact (List.nodup_append.1 this).1
  refine ⟨?_, ?_, ?_⟩
  · rw [hout]
    refine List.Nodup.sublist (List.Sublist.map _ List.filter_sublist) ?_
    rw [List.map_map]
    have : (Neighbor.index ∘ fun i => (⟨i, st i⟩ : Neighbor α)) = id := rfl
    rw [this, List.map_id]
    exact hnd
  · intro a ha
    rw [hout, List.mem_filter, List.mem_map] at ha
    obtain ⟨⟨i, hi, rfl⟩, h2⟩ := ha
    exact ⟨(hmem i).2 (Or.inl hi), rfl, of_decide_eq_true h2⟩
  · intro i hi hl
    rw [hout, List.mem_filter, List.mem_map]
    refine ⟨⟨i, ?_, rfl⟩, ?_⟩
    · exact ((hmem i).1 hi).resolve_right fun h => hl (hk i h)
    · rw [decide_eq_true_eq]
      by_contra hc
      exact hl (hmono _ _ _ (not_lt.1 hc) (hself i))

end

end Pico
