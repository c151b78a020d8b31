import Verif.SpecMerge
import Verif.Proof.Approx

/-! # Points that are divided over several trees: lists of neighbors -/

namespace Pico

open Spec

section Lists
variable {ι : Type} {idx : ι → List Nat}

theorem map_getD_range (l : List Nat) : (List.range l.length).map (fun i => l.getD i 0) = l := by
  apply List.ext_getElem
  · simp
  · intro i h1 h2
    simp [List.getD_eq_getElem?_getD, h2]

theorem perm_flatMap {τ : Type} {f g : ι → List τ} : ∀ {l : List ι}, (∀ s ∈ l, (f s).Perm (g s)) →
    (l.flatMap f).Perm (l.flatMap g)
  | [], _ => .refl _
  | s :: l, h => by
    simp only [List.flatMap_cons]
    exact (h s (by simp)).append (perm_flatMap fun t ht => h t (by simp [ht]))

theorem filter_flatMap {τ : Type} (p : τ → Bool) (f : ι → List τ) (l : List ι) :
    (l.flatMap f).filter p = l.flatMap fun s => (f s).filter p := by
  induction l with
  | nil => rfl
  | cons s l ih => simp only [List.flatMap_cons, List.filter_append, ih]

theorem flatMap_append_perm {τ : Type} (f g : ι → List τ) (l : List ι) :
    (l.flatMap f ++ l.flatMap g).Perm (l.flatMap fun s => f s ++ g s) := by
  induction l with
  | nil => exact .refl _
  | cons s l ih =>
    simp only [List.flatMap_cons]
    have : (f s ++ l.flatMap f ++ (g s ++ l.flatMap g)).Perm (f s ++ g s ++ (l.flatMap f ++ l.flatMap g)) := by
      rw [List.append_assoc, List.append_assoc]
      refine List.Perm.append_left _ ?_
      rw [← List.append_assoc, ← List.append_assoc]
      exact List.perm_append_comm.append_right _
    exact this.trans (ih.append_left _)

variable {α : Type} [LinearOrder α] {n : Nat} {dist : Nat → α} {shards : List ι}

theorem all_part (l : List Nat) (dist : Nat → α) :
    (all l.length fun i => dist (l.getD i 0)).map (renumber l) = l.map fun i => ⟨i, dist i⟩ := by
  conv_rhs => rw [← map_getD_range l]
  simp only [all, List.map_map]
  rfl

theorem flatMap_all (hp : (shards.map idx).flatten.Perm (List.range n)) :
    (shards.flatMap fun s => (all (idx s).length fun i => dist ((idx s).getD i 0)).map (renumber (idx s))).Perm
      (all n dist) := by
  have : (shards.flatMap fun s => (all (idx s).length fun i => dist ((idx s).getD i 0)).map (renumber (idx s))) =
      ((shards.map idx).flatten).map fun i => (⟨i, dist i⟩ : Neighbor α) := by
    rw [List.map_flatten, List.map_map, List.flatMap_def]
    congr 1
    exact List.map_congr_left fun s _ => all_part _ _
  rw [this]
  exact hp.map _

/-- Radius search. -/
theorem merge_radius (hp : (shards.map idx).flatten.Perm (List.range n)) {r : α} {f : ι → List (Neighbor α)}
    (hf : ∀ s ∈ shards, IsRadius (idx s).length (fun i => dist ((idx s).getD i 0)) r (f s)) {out : List (Neighbor α)}
    (ho : IsRadius n dist r out) : out.Perm (shards.flatMap fun s => (f s).map (renumber (idx s))) := by
  refine ho.trans ?_
  refine ((flatMap_all hp).symm.filter _).trans ?_
  rw [filter_flatMap]
  refine perm_flatMap fun s hs => ?_
  rw [List.filter_map]
  exact ((hf s hs).symm).map _

/-- Box search. -/
theorem merge_selection (hp : (shards.map idx).flatten.Perm (List.range n)) {P : Nat → Prop} {f : ι → List Nat}
    (hf : ∀ s ∈ shards, IsSelection (idx s).length (fun i => P ((idx s).getD i 0)) (f s)) {out : List Nat}
    (ho : IsSelection n P out) : out.Perm (shards.flatMap fun s => (f s).map fun i => (idx s).getD i 0) := by
  classical
  have key : ∀ {m : Nat} {Q : Nat → Prop} {l : List Nat}, IsSelection m Q l →
      l.Perm ((List.range m).filter fun i => decide (Q i)) := by
    intro m Q l h
    refine (List.perm_ext_iff_of_nodup h.1 (List.nodup_range.filter _)).2 fun i => ?_
    rw [h.2, List.mem_filter, List.mem_range, decide_eq_true_iff]
  refine (key ho).trans ?_
  refine (hp.symm.filter _).trans ?_
  have : (shards.map idx).flatten = shards.flatMap fun s => (List.range (idx s).length).map fun i => (idx s).getD i 0 := by
    rw [List.flatMap_def]
    congr 1
    exact List.map_congr_left fun s _ => (map_getD_range _).symm
  rw [this, filter_flatMap]
  refine perm_flatMap fun s hs => ?_
  rw [List.filter_map]
  exact ((key (hf s hs)).symm).map _

/-- Nearest neighbor. -/
theorem merge_nn (hp : (shards.map idx).flatten.Perm (List.range n)) {f : ι → Neighbor α}
    (hf : ∀ s ∈ shards, IsNN (idx s).length (fun i => dist ((idx s).getD i 0)) (f s)) {out : Neighbor α}
    (ho : IsNN n dist out) :
    (∀ s ∈ shards, out.distance ≤ (f s).distance) ∧ ∃ s ∈ shards, (f s).distance = out.distance := by
  have h1 : ∀ s ∈ shards, out.distance ≤ (f s).distance := by
    intro s hs
    rw [(hf s hs).distance]
    refine ho.nearest _ (List.mem_range.1 (hp.subset (List.mem_flatten.2 ⟨idx s, List.mem_map.2 ⟨s, hs, rfl⟩, ?_⟩)))
    have := (hf s hs).valid
    simp [List.getD_eq_getElem?_getD, this]
  refine ⟨h1, ?_⟩
  obtain ⟨l, hl, hm⟩ := List.mem_flatten.1 (hp.symm.subset (List.mem_range.2 ho.valid))
  obtain ⟨s, hs, rfl⟩ := List.mem_map.1 hl
  refine ⟨s, hs, le_antisymm ?_ (h1 s hs)⟩
  obtain ⟨j, hj, e⟩ := List.getElem_of_mem hm
  have := (hf s hs).nearest j hj
  rwa [List.getD_eq_getElem?_getD, List.getElem?_eq_getElem hj, Option.getD_some, e, ← ho.distance] at this

theorem countP_flatMap_le {τ : Type} (p : τ → Bool) (f : ι → List τ) {s : ι} : ∀ {l : List ι}, s ∈ l →
    (f s).countP p ≤ (l.flatMap f).countP p
  | t :: l, h => by
    rw [List.flatMap_cons, List.countP_append]
    rcases List.mem_cons.1 h with rfl | h
    · omega
    · have := countP_flatMap_le p f h
      omega

/-- The `k` nearest neighbors: sort the neighbors from all parts and take `k` of them. -/
theorem merge_knn (hp : (shards.map idx).flatten.Perm (List.range n)) {k : Nat} {f : ι → List (Neighbor α)}
    (hf : ∀ s ∈ shards, IsKnn (idx s).length k (fun i => dist ((idx s).getD i 0)) (f s)) {l : List (Neighbor α)}
    (hl : l.Perm (shards.flatMap fun s => (f s).map (renumber (idx s))))
    (hs : l.Pairwise fun a b => a.distance ≤ b.distance) : IsKnn n k dist (l.take k) := by
  classical
  have hrest : ∃ g : ι → List (Neighbor α), ∀ s ∈ shards,
      (f s ++ g s).Perm (all (idx s).length fun i => dist ((idx s).getD i 0)) ∧
        ∀ a ∈ f s, ∀ b ∈ g s, a.distance ≤ b.distance := by
    refine ⟨fun s => if h : s ∈ shards then (hf s h).rest.choose else [], fun s h => ?_⟩
    simp only [dif_pos h]
    exact (hf s h).rest.choose_spec
  obtain ⟨g, hg⟩ := hrest
  have hall : (l ++ shards.flatMap fun s => (g s).map (renumber (idx s))).Perm (all n dist) := by
    refine (hl.append_right _).trans ((flatMap_append_perm _ _ _).trans (.trans ?_ (flatMap_all (dist := dist) hp)))
    refine perm_flatMap fun s hs => ?_
    rw [← List.map_append]
    exact (hg s hs).1.map _
  have hfull : ∀ s ∈ shards, ∀ b ∈ g s, (f s).length = k := by
    intro s hs b hb
    have h1 := (hg s hs).1.length_eq
    have h2 := (hf s hs).length
    have h3 : 0 < (g s).length := List.length_pos_of_mem hb
    simp only [List.length_append, all, List.length_map, List.length_range] at h1
    omega
  -- nothing left out in a part is nearer than the first `k`
  have hout : ∀ a ∈ l.take k, ∀ s ∈ shards, ∀ b ∈ g s, a.distance ≤ b.distance := by
    intro a ha s hs' b hb
    by_contra hc
    rw [not_le] at hc
    obtain ⟨p, hpl, e⟩ := List.getElem_of_mem ha
    have hpk : p < k := by rw [List.length_take] at hpl; omega
    have hpl' : p < l.length := by rw [List.length_take] at hpl; omega
    rw [List.getElem_take] at e
    have c1 : k ≤ l.countP fun x => decide (x.distance < a.distance) := by
      have h0 : ((f s).map (renumber (idx s))).countP (fun x => decide (x.distance < a.distance)) = k := by
        rw [← hfull s hs' b hb, ← List.length_map (f := renumber (idx s)), List.countP_eq_length]
        intro x hx
        obtain ⟨y, hy, rfl⟩ := List.mem_map.1 hx
        exact decide_eq_true (((hg s hs').2 y hy b hb).trans_lt hc)
      rw [hl.countP_eq, ← h0]
      exact countP_flatMap_le _ (fun s => (f s).map (renumber (idx s))) hs'
    have c2 : (l.drop p).countP (fun x => decide (x.distance < a.distance)) = 0 := by
      rw [List.countP_eq_zero]
      intro x hx
      rw [decide_eq_true_iff, not_lt]
      rw [List.drop_eq_getElem_cons hpl', e] at hx
      rcases List.mem_cons.1 hx with rfl | hx
      · exact le_rfl
      · have := hs.sublist (List.drop_sublist p l)
        rw [List.drop_eq_getElem_cons hpl', e, List.pairwise_cons] at this
        exact this.1 x hx
    have c3 := List.countP_append (p := fun x : Neighbor α => decide (x.distance < a.distance)) (l₁ := l.take p)
      (l₂ := l.drop p)
    rw [List.take_append_drop, c2] at c3
    have c4 := List.countP_le_length (p := fun x : Neighbor α => decide (x.distance < a.distance)) (l := l.take p)
    rw [List.length_take] at c4
    omega
  refine ⟨?_, hs.sublist (List.take_sublist _ _),
    l.drop k ++ shards.flatMap fun s => (g s).map (renumber (idx s)), ?_, ?_⟩
  · -- the number of neighbors
    rw [List.length_take]
    have h1 := hall.length_eq
    simp only [List.length_append, all, List.length_map, List.length_range] at h1
    by_cases hk : k ≤ l.length
    · omega
    · have h0 : (shards.flatMap fun s => (g s).map (renumber (idx s))) = [] := by
        rw [List.flatMap_eq_nil_iff]
        intro s hs'
        rw [List.map_eq_nil_iff, List.eq_nil_iff_forall_not_mem]
        intro b hb
        apply hk
        rw [← hfull s hs' b hb, hl.length_eq, List.length_flatMap]
        have : ((f s).map (renumber (idx s))).length ∈
            shards.map fun s => ((f s).map (renumber (idx s))).length := List.mem_map.2 ⟨s, hs', rfl⟩
        rw [List.length_map] at this
        exact List.single_le_sum (fun _ _ => Nat.zero_le _) _ this
      rw [h0] at h1
      simp only [List.length_nil] at h1
      omega
  · rw [← List.append_assoc, List.take_append_drop]
    exact hall
  · intro a ha b hb
    rcases List.mem_append.1 hb with hb | hb
    · have := hs
      rw [← List.take_append_drop k l, List.pairwise_append] at this
      exact this.2.2 a ha b hb
    · obtain ⟨s, hs', hb⟩ := List.mem_flatMap.1 hb
      obtain ⟨y, hy, rfl⟩ := List.mem_map.1 hb
      exact hout a ha s hs' y hy

end Lists

/-! ## Sorted lists -/

section Sorted
variable {α : Type} [LinearOrder α]

/-- If there are at least as many elements up to `b` in `m` as there are up to `a` in `l`, then at each position where `l` has
an element of at most `a`, `m` has one of at most `b`. -/
theorem sorted_le_of_count {l m : List α} (hl : l.Pairwise (· ≤ ·)) (hm : m.Pairwise (· ≤ ·)) {a b : α}
    (h : l.countP (fun y => decide (y ≤ a)) ≤ m.countP (fun y => decide (y ≤ b))) {i : Nat} (hi : i < l.length)
    (ha : l[i] ≤ a) : ∃ hi' : i < m.length, m[i] ≤ b := by
  have c1 : i + 1 ≤ l.countP fun y => decide (y ≤ a) := by
    have : (l.take (i + 1)).countP (fun y => decide (y ≤ a)) = i + 1 := by
      have e : (l.take (i + 1)).length = i + 1 := by rw [List.length_take]; omega
      conv_rhs => rw [← e]
      rw [List.countP_eq_length]
      intro x hx
      obtain ⟨p, hp, rfl⟩ := List.getElem_of_mem hx
      rw [List.getElem_take, decide_eq_true_iff]
      rw [e] at hp
      refine le_trans ?_ ha
      rcases Nat.lt_or_ge p i with h | h
      · exact List.pairwise_iff_getElem.1 hl _ _ _ _ h
      · have : p = i := by omega
        subst this
        exact le_rfl
    rw [← this]
    exact (List.take_sublist _ _).countP_le
  have c2 := c1.trans h
  have hi' : i < m.length := by
    have := List.countP_le_length (p := fun y => decide (y ≤ b)) (l := m)
    omega
  refine ⟨hi', ?_⟩
  by_contra hc
  rw [not_le] at hc
  have c3 : (m.drop i).countP (fun y => decide (y ≤ b)) = 0 := by
    rw [List.countP_eq_zero]
    intro x hx
    rw [decide_eq_true_iff, not_le]
    obtain ⟨p, hp, rfl⟩ := List.getElem_of_mem hx
    rw [List.getElem_drop]
    rcases Nat.eq_zero_or_pos p with rfl | h
    · simpa using hc
    · exact hc.trans_le (List.pairwise_iff_getElem.1 hm _ _ _ _ (by omega))
  have c4 := List.countP_append (p := fun y => decide (y ≤ b)) (l₁ := m.take i) (l₂ := m.drop i)
  rw [List.take_append_drop, c3] at c4
  have c5 := List.countP_le_length (p := fun y => decide (y ≤ b)) (l := m.take i)
  rw [List.length_take] at c5
  omega

end Sorted

end Pico
