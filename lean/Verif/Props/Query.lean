import Verif.Proof.Relate
import Verif.Props.Box

/-!
# C03, C26, C27, C40, C44: output arguments, relations between queries, arbitrary arithmetic
-/

set_option linter.unusedSectionVars false

namespace Pico.Props

open Pico Spec

/-! ## C44: any arithmetic -/

section Any
variable {α : Type} [LinearOrder α] [Zero α] [Add α] [Sub α] {d : Nat} {β : Type}
  {tag : SpaceTag α d β} {M : Metric α d} {N : Num α} {pts : Nat → Pt α d} {n : Nat}
  {o : BuildOpts α d} {fuel : Nat} {T : KdTree α d β}

/-- The traversal presents some of the points, each at most once, with the computed distances. -/
theorem traversal_any (h : KdTree.make tag M N pts n o fuel = .ok T) (q : Pt α d) {σ : Type}
    (V : Visitor α σ) (s : σ) :
    ∃ vis : List Nat, vis.Nodup ∧ (∀ i ∈ vis, i < n) ∧
      T.searchNearest q V s = visitAll V (fun i => M.dist q (pts i)) vis s := by
  obtain ⟨h1, _, h3⟩ := c16_partition h
  obtain ⟨_, rfl, rfl, rfl, rfl, _⟩ := KdTree.make_ok h
  obtain ⟨vis, skip, hp, he⟩ := searchNearest_struct T.tag.splitDim (T.tag.pick T.metric q) V
    (fun i => T.metric.dist q (T.pts i)) T.data.indices T.data.root 0 (fun _ => 0, s)
  rw [elems_eq_ranges, h3] at hp
  have hp' := hp.trans h1
  refine ⟨vis, (List.nodup_append.1 (hp'.nodup_iff.2 List.nodup_range)).1, ?_, ?_⟩
  · intro i hi
    exact List.mem_range.1 (hp'.subset (List.mem_append_left _ hi))
  · unfold KdTree.searchNearest searchNearestRoot
    rw [he]

/-- C44 (nearest neighbor; partial: needs a result distance below `max()`, see `c44_false`): the index is a
point index and the distance the one computed for it. -/
theorem c44_nn_partial (h : KdTree.make tag M N pts n o fuel = .ok T) (q : Pt α d) (nn : Neighbor α)
    (hfound : (T.searchNn q nn).distance ≠ N.big) :
    (T.searchNn q nn).index < n ∧ (T.searchNn q nn).distance = M.dist q (pts (T.searchNn q nn).index) ∧
      (T.searchNn q nn).distance < N.big := by
  obtain ⟨vis, _, hlt, he⟩ := traversal_any h q nnVisitor (nnInit T.num nn)
  obtain ⟨_, _, hN, _, _, _⟩ := KdTree.make_ok h
  unfold KdTree.searchNn at hfound ⊢
  rw [he] at hfound ⊢
  rcases nn_visitAll (fun i => M.dist q (pts i)) vis (nnInit T.num nn) with
    ⟨h1, _⟩ | ⟨i, hi, h1, h2, _⟩
  · rw [h1] at hfound
    exact absurd (by rw [← hN]; rfl) hfound
  · rw [h1]
    refine ⟨hlt i hi, rfl, ?_⟩
    rw [← hN]
    exact h2

/-- C44 (nearest neighbor): otherwise no presented point had a distance below `max()`, and the index is
the one the argument held before. -/
theorem c44_nn_untouched (h : KdTree.make tag M N pts n o fuel = .ok T) (q : Pt α d) (nn : Neighbor α)
    (hfound : (T.searchNn q nn).distance = N.big) : (T.searchNn q nn).index = nn.index := by
  obtain ⟨vis, _, hlt, he⟩ := traversal_any h q nnVisitor (nnInit T.num nn)
  obtain ⟨_, _, hN, _, _, _⟩ := KdTree.make_ok h
  unfold KdTree.searchNn at hfound ⊢
  rw [he] at hfound ⊢
  rcases nn_visitAll (fun i => M.dist q (pts i)) vis (nnInit T.num nn) with
    ⟨h1, _⟩ | ⟨i, hi, h1, h2, _⟩
  · rw [h1]; rfl
  · rw [h1] at hfound
    rw [← hN] at hfound
    exact absurd hfound h2.ne

/-- C44 (k nearest neighbors, range version; partial: entries after the genuine ones exist when `k` exceeds
the number of points presented with a distance below `max()`): the result starts with sorted, distinct,
genuine neighbors; if anything follows, the last entry carries the distance `max()`. -/
theorem c44_knn_range_partial (h : KdTree.make tag M N pts n o fuel = .ok T) (q : Pt α d)
    (buf : List (Neighbor α)) (hb : 0 < buf.length) :
    ∃ L tail, T.searchKnnRange q buf = .ok (L ++ tail) ∧ (L ++ tail).length = buf.length ∧
      L.Pairwise (fun a b => a.distance ≤ b.distance) ∧ (L.map Neighbor.index).Nodup ∧
      (∀ a ∈ L, a.index < n ∧ a.distance = M.dist q (pts a.index) ∧ a.distance < N.big) ∧
      (∀ x, tail.getLast? = some x → x.distance = N.big) := by
  obtain ⟨init, hi, hlen, hlast, _, _, hinv⟩ := knnInit_inv T.num buf hb
  obtain ⟨vis, hnd, hlt, he⟩ := traversal_any h q (knnVisitor T.num) ⟨init, 0⟩
  obtain ⟨_, _, hN, _, _, _⟩ := KdTree.make_ok h
  set dist := fun i => M.dist q (pts i) with hdist
  rw [knn_visitAll_filter T.num dist init hlast vis hinv] at he
  set vis' := vis.filter fun i => decide (dist i < T.num.big) with hvis'
  obtain ⟨L, R, hL⟩ := knn_visitAll T.num dist init hlast vis'
    (fun i hi => by simpa using (List.mem_filter.1 hi).2) hinv
  rw [List.nil_append] at hL
  refine ⟨L, init.drop L.length, ?_, ?_, hL.sorted, ?_, ?_, ?_⟩
  · unfold KdTree.searchKnnRange
    rw [hi]
    simp only [Outcome.bind, Outcome.ok.injEq]
    rw [he, hL.buf]
  · have := hL.le
    rw [List.length_append, List.length_drop]
    omega
  · have h1 : ((L ++ R).map Neighbor.index).Perm vis' := by
      have := hL.perm.map Neighbor.index
      simpa [Function.comp_def] using this
    have h3 := h1.nodup_iff.2 (hnd.filter _)
    rw [List.map_append] at h3
    exact (List.nodup_append.1 h3).1
  · intro a ha
    have := hL.perm.subset (List.mem_append_left R ha)
    obtain ⟨i, hi, rfl⟩ := List.mem_map.1 this
    refine ⟨hlt i (List.mem_filter.1 hi).1, rfl, ?_⟩
    rw [← hN]
    exact hL.small _ ha
  · intro x hx
    obtain ⟨y, hy, hyd⟩ := hlast
    rw [List.getLast?_drop] at hx
    split_ifs at hx
    rw [hy] at hx
    rw [← hN, ← hyd]
    simp only [Option.some.injEq] at hx
    rw [hx]

/-- C44 (k nearest neighbors, vector version; partial as `c44_knn_range_partial`). -/
theorem c44_knn_partial (h : KdTree.make tag M N pts n o fuel = .ok T) (q : Pt α d) (k : Nat)
    (prior : List (Neighbor α)) (hk : 0 < k) (hn : 0 < n) :
    ∃ L tail, T.searchKnn q k prior = .ok (L ++ tail) ∧ (L ++ tail).length = min k n ∧
      L.Pairwise (fun a b => a.distance ≤ b.distance) ∧ (L.map Neighbor.index).Nodup ∧
      (∀ a ∈ L, a.index < n ∧ a.distance = M.dist q (pts a.index) ∧ a.distance < N.big) ∧
      (∀ x, tail.getLast? = some x → x.distance = N.big) := by
  have hTn : T.n = n := (KdTree.make_ok h).2.2.2.2.1
  have hlen := resize_length (min k T.n) prior
  obtain ⟨L, tail, h1, h2, h3⟩ := c44_knn_range_partial h q (KdTree.resize (min k T.n) prior)
    (by rw [hlen]; omega)
  exact ⟨L, tail, h1, by rw [h2, hlen, hTn], h3⟩

/-- C44 (radius): every result is a genuine point below the radius, none is repeated, and sorting works,
whatever the arithmetic. -/
theorem c44_radius (h : KdTree.make tag M N pts n o fuel = .ok T) (q : Pt α d)
    (sorter : StdSort (Neighbor α)) (r : α) (prior : List (Neighbor α)) (sort : Bool) :
    ((T.searchRadius sorter q r prior sort).map Neighbor.index).Nodup ∧
    (∀ a ∈ T.searchRadius sorter q r prior sort,
      a.index < n ∧ a.distance = M.dist q (pts a.index) ∧ a.distance < r) ∧
    (sort = true → (T.searchRadius sorter q r prior sort).Pairwise fun a b => a.distance ≤ b.distance) := by
  obtain ⟨vis, hnd, hlt, he⟩ := traversal_any h q (radiusVisitor r) (radiusInit prior)
  rw [radius_visitAll] at he
  have hperm : (T.searchRadius sorter q r prior sort).Perm
      ((vis.map fun i => (⟨i, M.dist q (pts i)⟩ : Neighbor α)).filter fun x => decide (x.distance < r)) := by
    unfold KdTree.searchRadius
    dsimp only
    rw [he]
    cases sort with
    | false => exact List.Perm.refl _
    | true => exact sorter.sort_perm _ _ strictWeak_neighborLt
  refine ⟨?_, ?_, ?_⟩
  · rw [(hperm.map Neighbor.index).nodup_iff]
    have h3 : ((vis.map fun i => (⟨i, M.dist q (pts i)⟩ : Neighbor α)).map Neighbor.index).Nodup := by
      simpa [Function.comp_def] using hnd
    exact (List.filter_sublist.map _).nodup h3
  · intro a ha
    have := hperm.subset ha
    rw [List.mem_filter, List.mem_map, decide_eq_true_eq] at this
    obtain ⟨⟨i, hi, rfl⟩, h2⟩ := this
    exact ⟨hlt i hi, rfl, h2⟩
  · intro hs
    subst hs
    unfold KdTree.searchRadius
    simp only [if_true]
    refine (sorter.sort_sorted _ _ strictWeak_neighborLt).imp ?_
    intro a b hab
    simpa [Neighbor.lt] using hab

/-! ## C27: k = 0 -/

/-- C27 is false: with `k = 0` the constructor of the visitor writes through `std::prev(end())` of an
empty vector. -/
theorem c27_false (T : KdTree α d β) (q : Pt α d) (prior : List (Neighbor α)) :
    T.searchKnn q 0 prior = .ub := by
  simp [KdTree.searchKnn, KdTree.resize, KdTree.searchKnnRange, knnInit, Outcome.bind]

/-- C27 (partial: `k >= 1` and a non-empty point set): defined, `min k n` entries, whatever the
arithmetic. -/
theorem c27_defined_partial (h : KdTree.make tag M N pts n o fuel = .ok T) (q : Pt α d) (k : Nat)
    (prior : List (Neighbor α)) (hk : 0 < k) (hn : 0 < n) :
    ∃ out, T.searchKnn q k prior = .ok out ∧ out.length = min k n := by
  obtain ⟨L, tail, h1, h2, _⟩ := c44_knn_partial h q k prior hk hn
  exact ⟨_, h1, h2⟩

/-! ## C26: previous contents of the output -/

/-- C26 (nearest neighbor, any arithmetic): the distance does not depend on the previous contents, and
neither does the index, unless no point has a distance below `max()`. -/
theorem c26_nn (h : KdTree.make tag M N pts n o fuel = .ok T) (q : Pt α d) (a b : Neighbor α) :
    (T.searchNn q a).distance = (T.searchNn q b).distance ∧
      ((T.searchNn q a).distance ≠ N.big → T.searchNn q a = T.searchNn q b) := by
  obtain ⟨_, _, hN, _, _, _⟩ := KdTree.make_ok h
  have := (searchNearest_rel T.tag.splitDim (T.tag.pick T.metric q) nnVisitor nnVisitor
    (fun i => T.metric.dist q (T.pts i)) T.data.indices
    (fun s t : Neighbor α => s = t ∨ (s.distance = N.big ∧ t.distance = N.big))
    (by
      rintro s t (rfl | ⟨h1, h2⟩)
      · rfl
      · simp only [nnVisitor, h1, h2])
    (by
      rintro s t i (rfl | ⟨h1, h2⟩)
      · exact Or.inl rfl
      · simp only [nnVisitor, h1, h2]
        split_ifs
        · exact Or.inl rfl
        · exact Or.inr ⟨h1, h2⟩) T.data.root 0 (fun _ => 0) (nnInit T.num a) (nnInit T.num b)
    (Or.inr ⟨by simp [nnInit, hN], by simp [nnInit, hN]⟩)).2
  unfold KdTree.searchNn KdTree.searchNearest searchNearestRoot
  rcases this with h1 | ⟨h1, h2⟩
  · rw [h1]; exact ⟨rfl, fun _ => rfl⟩
  · rw [h1, h2]; exact ⟨rfl, fun hc => absurd rfl hc⟩

/-- C26 (k nearest neighbors, any arithmetic): the results are equal, or they agree on what was found and
both carry the distance `max()` at the end (fewer than `min k n` points were found). -/
theorem c26_knn_any (h : KdTree.make tag M N pts n o fuel = .ok T) (q : Pt α d) (k : Nat)
    (a b : List (Neighbor α)) (hk : 0 < k) (hn : 0 < n) :
    ∃ x y, T.searchKnn q k a = .ok x ∧ T.searchKnn q k b = .ok y ∧
      (x = y ∨ ∃ L, L.length < min k n ∧ L <+: x ∧ L <+: y ∧
        (∃ z, x.getLast? = some z ∧ z.distance = N.big) ∧ ∃ z, y.getLast? = some z ∧ z.distance = N.big) := by
  have hTn : T.n = n := (KdTree.make_ok h).2.2.2.2.1
  have hN : T.num = N := (KdTree.make_ok h).2.2.1
  have la := resize_length (min k T.n) a
  have lb := resize_length (min k T.n) b
  obtain ⟨i₁, e₁, l₁, last₁, _⟩ := knnInit_inv T.num (KdTree.resize (min k T.n) a) (by rw [la]; omega)
  obtain ⟨i₂, e₂, l₂, last₂, _⟩ := knnInit_inv T.num (KdTree.resize (min k T.n) b) (by rw [lb]; omega)
  have hlen : i₁.length = i₂.length := by rw [l₁, l₂, la, lb]
  have hpos : 0 < i₁.length := by rw [l₁, la]; omega
  have := (searchNearest_rel T.tag.splitDim (T.tag.pick T.metric q) (knnVisitor T.num)
    (knnVisitor T.num) (fun i => T.metric.dist q (T.pts i)) T.data.indices (KnnSame i₁ i₂)
    (fun s t hst => knnSame_max last₁ last₂ hst)
    (fun s t i hst => knnSame_visit hlen last₁ last₂ hst i _) T.data.root 0 (fun _ => 0) ⟨i₁, 0⟩
    ⟨i₂, 0⟩ (Or.inr ⟨[], by simpa using hpos, by simpa [← hlen] using hpos, by simp, by simp, by simp⟩)).2
  refine ⟨(T.searchNearest q (knnVisitor T.num) ⟨i₁, 0⟩).buf,
    (T.searchNearest q (knnVisitor T.num) ⟨i₂, 0⟩).buf, ?_, ?_, ?_⟩
  · simp only [KdTree.searchKnn, KdTree.searchKnnRange, e₁, Outcome.bind]
  · simp only [KdTree.searchKnn, KdTree.searchKnnRange, e₂, Outcome.bind]
  · unfold KdTree.searchNearest searchNearestRoot
    rcases this with h1 | ⟨L, hl1, hl2, _, h1, h2⟩
    · left; rw [h1]
    · right
      obtain ⟨z, hz, hd⟩ := last₁
      obtain ⟨z', hz', hd'⟩ := last₂
      refine ⟨L, by omega, ?_, ?_, ⟨z, ?_, by rw [hd, hN]⟩, z', ?_, by rw [hd', hN]⟩
      · rw [h1]; exact List.prefix_append _ _
      · rw [h2]; exact List.prefix_append _ _
      · rw [h1, List.getLast?_append, List.getLast?_drop, if_neg (by omega), hz]
        rfl
      · rw [h2, List.getLast?_append, List.getLast?_drop, if_neg (by omega), hz']
        rfl

/-- C26 (radius): the previous contents are discarded. -/
theorem c26_radius (T : KdTree α d β) (q : Pt α d) (sorter : StdSort (Neighbor α)) (r : α)
    (a b : List (Neighbor α)) (sort : Bool) :
    T.searchRadius sorter q r a sort = T.searchRadius sorter q r b sort := rfl

/-- C26 (box): the previous contents are discarded. -/
theorem c26_box (T : KdTree α d β) (mn mx : Pt α d) (a b : List Nat) :
    T.searchBox mn mx a = T.searchBox mn mx b := rfl

/-! ## Consequences of an exact traversal -/

variable {q : Pt α d}

theorem knn_independent (h : KdTree.make tag M N pts n o fuel = .ok T) (hE : ExactAt T q) (hn : 0 < n)
    (hbig : ∀ i < n, M.dist q (pts i) < N.big) (k : Nat) (hk : 0 < k) (a b : List (Neighbor α)) :
    T.searchKnn q k a = T.searchKnn q k b := by
  obtain ⟨x, y, h1, h2, h3⟩ := c26_knn_any h q k a b hk hn
  rw [h1, h2]
  rcases h3 with rfl | ⟨_, _, _, _, ⟨z, hz, hd⟩, _⟩
  · rfl
  · exfalso
    obtain ⟨out, e1, e2, _⟩ := knn_of_exact h hE hn rfl hbig k hk a
    rw [h1] at e1
    simp only [Outcome.ok.injEq] at e1
    subst e1
    obtain ⟨rest, hp, _⟩ := e2.rest
    have hz' : z ∈ x := by
      rw [List.getLast?_eq_some_iff] at hz
      obtain ⟨ys, rfl⟩ := hz
      simp
    have := hp.subset (List.mem_append_left rest hz')
    obtain ⟨i, hi, rfl⟩ := List.mem_map.1 this
    exact absurd hd (hbig i (List.mem_range.1 hi)).ne

/-- What the range version of `search_knn` leaves in a range of any length. -/
theorem range_of_exact (h : KdTree.make tag M N pts n o fuel = .ok T) (hE : ExactAt T q)
    (hbig : ∀ i < n, M.dist q (pts i) < N.big) (buf : List (Neighbor α)) (hb : 0 < buf.length) :
    ∃ out, T.searchKnnRange q buf = .ok out ∧ out.length = buf.length ∧
      IsKnn n buf.length (fun i => M.dist q (pts i)) (out.take n) ∧
      (∀ j, n ≤ j → j + 1 < buf.length → out[j]? = buf[j]?) ∧
      (n < buf.length → ∃ x, buf.getLast? = some x ∧ out.getLast? = some ⟨x.index, N.big⟩) := by
  obtain ⟨_, rfl, rfl, rfl, rfl, _⟩ := KdTree.make_ok h
  obtain ⟨L, h1, h2⟩ := hE.knnRange hbig buf hb
  have hL := h2.length
  refine ⟨_, h1, ?_, ?_, ?_, ?_⟩
  · rw [List.length_append, List.length_drop, List.length_modify]
    omega
  · have : (L ++ List.drop L.length (buf.modify (buf.length - 1)
        fun x => { x with distance := T.num.big })).take T.n = L := by
      by_cases hc : buf.length ≤ T.n
      · rw [List.drop_eq_nil_of_le (by rw [List.length_modify]; omega), List.append_nil,
          List.take_of_length_le (by omega)]
      · rw [List.take_append_of_le_length (by omega), List.take_of_length_le (by omega)]
    rw [this]
    exact h2
  · intro j hj hjb
    have hLn : L.length = T.n := by omega
    rw [List.getElem?_append_right (by omega), List.getElem?_drop, List.getElem?_modify]
    have e1 : L.length + (j - L.length) = j := by omega
    have e2 : ¬ buf.length - 1 = j := by omega
    rw [e1]
    simp [e2]
  · intro hlt
    have hLn : L.length = T.n := by omega
    have hne : buf ≠ [] := by intro h0; simp [h0] at hb
    obtain ⟨B, x, rfl⟩ : ∃ B x, buf = B ++ [x] :=
      ⟨buf.dropLast, buf.getLast hne, (List.dropLast_append_getLast hne).symm⟩
    refine ⟨x, by simp, ?_⟩
    rw [List.getLast?_append, List.getLast?_drop, if_neg (by rw [List.length_modify]; omega)]
    have : (B ++ [x]).modify ((B ++ [x]).length - 1) (fun x => { x with distance := T.num.big }) =
        B ++ [{ x with distance := T.num.big }] := by
      rw [List.length_append, List.length_singleton, Nat.add_sub_cancel, List.modify_eq_set_getElem?]
      simp
    rw [this]
    simp

/-! ## C40: relations between queries, for an exact traversal -/

/-- The relations of C40 on one tree and one query point. -/
def QueriesAgree (T : KdTree α d β) (q : Pt α d) : Prop :=
  -- the nearest distance is the first of the k nearest distances
  (∀ nn k prior out, 0 < k → T.searchKnn q k prior = .ok out →
    (out.map Neighbor.distance).head? = some (T.searchNn q nn).distance) ∧
  -- the k nearest distances are the first ones of the k + 1 nearest distances
  (∀ k p₁ p₂ out₁ out₂, 0 < k → T.searchKnn q k p₁ = .ok out₁ → T.searchKnn q (k + 1) p₂ = .ok out₂ →
    out₁.map Neighbor.distance <+: out₂.map Neighbor.distance) ∧
  -- radius counts
  (∀ sorter r p₁ p₂ sort out, T.searchKnn q T.n p₁ = .ok out →
    (T.searchRadius sorter q r p₂ sort).length = out.countP fun x => decide (x.distance < r)) ∧
  -- a larger radius returns more
  (∀ sorter r₁ r₂ p₁ p₂ s₁ s₂, r₁ ≤ r₂ →
    ∀ a ∈ T.searchRadius sorter q r₁ p₁ s₁, a ∈ T.searchRadius sorter q r₂ p₂ s₂)

theorem agree_of_exact_queries (hE : ExactAt T q) (hn : 0 < T.n)
    (hbig : ∀ i < T.n, T.metric.dist q (T.pts i) < T.num.big) : QueriesAgree T q := by
  set dist := fun i => T.metric.dist q (T.pts i) with hdist
  have knn : ∀ k prior out, 0 < k → T.searchKnn q k prior = .ok out → IsKnn T.n k dist out := by
    intro k prior out hk ho
    obtain ⟨o', h1, h2⟩ := hE.knn hn hbig k hk prior
    rw [ho, Outcome.ok.injEq] at h1
    rw [h1]; exact h2
  refine ⟨?_, ?_, ?_, ?_⟩
  · intro nn k prior out hk ho
    have h1 := knn k prior out hk ho
    have h2 := hE.nn hn hbig nn
    have hlen := h1.length
    cases out with
    | nil => simp at hlen; omega
    | cons a l =>
      simp only [List.map_cons, List.head?_cons, Option.some.injEq]
      obtain ⟨rest, hp, hr⟩ := h1.rest
      have hmem : ∀ b, b ∈ a :: l ++ rest ↔ ∃ i < T.n, b = ⟨i, dist i⟩ := by
        intro b
        rw [hp.mem_iff, all, List.mem_map]
        simp only [List.mem_range]
        constructor
        · rintro ⟨i, hi, rfl⟩; exact ⟨i, hi, rfl⟩
        · rintro ⟨i, hi, rfl⟩; exact ⟨i, hi, rfl⟩
      apply le_antisymm
      · have hs := h1.sorted
        rw [List.pairwise_cons] at hs
        have hin := (hmem ⟨(T.searchNn q nn).index, dist (T.searchNn q nn).index⟩).2 ⟨_, h2.valid, rfl⟩
        rw [h2.distance]
        rcases List.mem_append.1 hin with hin | hin
        · rcases List.mem_cons.1 hin with hin | hin
          · rw [← hin]
          · exact hs.1 _ hin
        · exact hr a (by simp) _ hin
      · obtain ⟨i, hi, he⟩ := (hmem a).1 (by simp)
        rw [he]
        exact h2.nearest i hi
  · intro k p₁ p₂ out₁ out₂ hk h1 h2
    rw [(knn k p₁ out₁ hk h1).map_distance, (knn (k + 1) p₂ out₂ (by omega) h2).map_distance]
    unfold smallest
    exact List.take_prefix_take_left (by omega)
  · intro sorter r p₁ p₂ sort out h1
    have h2 := knn T.n p₁ out hn h1
    have h3 := (hE.radius sorter r p₂ sort).1
    rw [h3.length_eq, ← List.countP_eq_length_filter]
    obtain ⟨rest, hp, _⟩ := h2.rest
    have hrest : rest = [] := by
      have h4 := hp.length_eq
      have h5 := h2.length
      simp only [List.length_append, all, List.length_map, List.length_range] at h4
      rw [min_self] at h5
      exact List.eq_nil_of_length_eq_zero (by omega)
    rw [hrest, List.append_nil] at hp
    exact (hp.countP_eq _).symm
  · intro sorter r₁ r₂ p₁ p₂ s₁ s₂ hr a ha
    have h1 := (hE.radius sorter r₁ p₁ s₁).1
    have h2 := (hE.radius sorter r₂ p₂ s₂).1
    have h3 := h1.subset ha
    rw [List.mem_filter, decide_eq_true_eq] at h3
    refine h2.symm.subset ?_
    rw [List.mem_filter, decide_eq_true_eq]
    exact ⟨h3.1, lt_of_lt_of_le h3.2 hr⟩

end Any

section Exact
variable {α : Type} [CommRing α] [LinearOrder α] [IsStrictOrderedRing α] {d : Nat} {M : Metric α d}
  {N : Num α} {pts : Nat → Pt α d} {n : Nat} {o : BuildOpts α d} {fuel : Nat}

/-! ## C03: the range version -/

/-- C03 (partial: the entries after the `n`-th when `k > n`; see `c03_false`): the first `min k n` entries
are the k nearest neighbors.  For `k > n` the remaining entries are described: they keep their previous
contents, except that the last one gets the distance `max()`. -/
theorem c03_range_partial (hM : EuclideanAdditive M) {T : KdTree α d (Branch1 α d)}
    (h : KdTree.make (euclideanTag α d) M N pts n o fuel = .ok T) (hR : Representable N pts n o)
    (hn : 0 < n) (q : Pt α d) (hbig : ∀ i < n, M.dist q (pts i) < N.big) (buf : List (Neighbor α))
    (hb : 0 < buf.length) :
    ∃ out, T.searchKnnRange q buf = .ok out ∧ out.length = buf.length ∧
      IsKnn n buf.length (fun i => M.dist q (pts i)) (out.take n) ∧
      (∀ j, n ≤ j → j + 1 < buf.length → out[j]? = buf[j]?) ∧
      (n < buf.length → ∃ x, buf.getLast? = some x ∧ out.getLast? = some ⟨x.index, N.big⟩) :=
  range_of_exact h (exactAt_euclidean hM h hR hn q) hbig buf hb

/-- C03 for products of lines and circles (partial in the same way). -/
theorem c03_range_topological_partial (hM : TopologicalAdditive M) {T : KdTree α d (Branch2 α d)}
    (h : KdTree.make (topologicalTag α d) M N pts n o fuel = .ok T) (hR : Representable N pts n o)
    (hn : 0 < n) (q : Pt α d) (hc : CircleOk M.space pts n o q)
    (hbig : ∀ i < n, M.dist q (pts i) < N.big) (buf : List (Neighbor α)) (hb : 0 < buf.length) :
    ∃ out, T.searchKnnRange q buf = .ok out ∧ out.length = buf.length ∧
      IsKnn n buf.length (fun i => M.dist q (pts i)) (out.take n) ∧
      (∀ j, n ≤ j → j + 1 < buf.length → out[j]? = buf[j]?) ∧
      (n < buf.length → ∃ x, buf.getLast? = some x ∧ out.getLast? = some ⟨x.index, N.big⟩) :=
  range_of_exact h (exactAt_topological hM h hR hn q hc) hbig buf hb

/-! ## C26 for the vector version -/

/-- C26 (k nearest neighbors, Euclidean metrics). -/
theorem c26_knn (hM : EuclideanAdditive M) {T : KdTree α d (Branch1 α d)}
    (h : KdTree.make (euclideanTag α d) M N pts n o fuel = .ok T) (hR : Representable N pts n o)
    (hn : 0 < n) (q : Pt α d) (hbig : ∀ i < n, M.dist q (pts i) < N.big) (k : Nat) (hk : 0 < k)
    (a b : List (Neighbor α)) : T.searchKnn q k a = T.searchKnn q k b :=
  knn_independent h (exactAt_euclidean hM h hR hn q) hn hbig k hk a b

/-- C26 (k nearest neighbors, products of lines and circles). -/
theorem c26_knn_topological (hM : TopologicalAdditive M) {T : KdTree α d (Branch2 α d)}
    (h : KdTree.make (topologicalTag α d) M N pts n o fuel = .ok T) (hR : Representable N pts n o)
    (hn : 0 < n) (q : Pt α d) (hc : CircleOk M.space pts n o q)
    (hbig : ∀ i < n, M.dist q (pts i) < N.big) (k : Nat) (hk : 0 < k)
    (a b : List (Neighbor α)) : T.searchKnn q k a = T.searchKnn q k b :=
  knn_independent h (exactAt_topological hM h hR hn q hc) hn hbig k hk a b

/-! ## C40 -/

/-- C40 (Euclidean metrics). -/
theorem c40_euclidean (hM : EuclideanAdditive M) {T : KdTree α d (Branch1 α d)}
    (h : KdTree.make (euclideanTag α d) M N pts n o fuel = .ok T) (hR : Representable N pts n o)
    (hn : 0 < n) (q : Pt α d) (hbig : ∀ i < n, M.dist q (pts i) < N.big) : QueriesAgree T q := by
  have hE := exactAt_euclidean hM h hR hn q
  obtain ⟨_, rfl, rfl, rfl, rfl, _⟩ := KdTree.make_ok h
  exact agree_of_exact_queries hE hn hbig

/-- C40 (products of lines and circles). -/
theorem c40_topological (hM : TopologicalAdditive M) {T : KdTree α d (Branch2 α d)}
    (h : KdTree.make (topologicalTag α d) M N pts n o fuel = .ok T) (hR : Representable N pts n o)
    (hn : 0 < n) (q : Pt α d) (hc : CircleOk M.space pts n o q)
    (hbig : ∀ i < n, M.dist q (pts i) < N.big) : QueriesAgree T q := by
  have hE := exactAt_topological hM h hR hn q hc
  obtain ⟨_, rfl, rfl, rfl, rfl, _⟩ := KdTree.make_ok h
  exact agree_of_exact_queries hE hn hbig

end Exact

section Box
variable {α : Type} [LinearOrder α] [Zero α] [One α] [Add α] [Sub α] [Neg α] {d : Nat} {M : Metric α d}
  {N : Num α} {pts : Nat → Pt α d} {n : Nat} {o : BuildOpts α d} {fuel : Nat}

/-- C40 (box search): a larger box returns more. -/
theorem c40_box {T : KdTree α d (Branch1 α d)}
    (h : KdTree.make (euclideanTag α d) M N pts n o fuel = .ok T) (hb : BoundsContain pts n o.bounds)
    (mn mx mn' mx' : Pt α d) (p₁ p₂ : List Nat) (h1 : ∀ j, mn' j ≤ mn j) (h2 : ∀ j, mx j ≤ mx' j) :
    ∀ i ∈ T.searchBox mn mx p₁, i ∈ T.searchBox mn' mx' p₂ := by
  intro i hi
  have := ((c08_box h hb mn mx p₁).2 i).1 hi
  exact ((c08_box h hb mn' mx' p₂).2 i).2
    ⟨this.1, fun j => ⟨(h1 j).trans (this.2 j).1, (this.2 j).2.trans (h2 j)⟩⟩

end Box

/-! ## Examples and counterexamples -/

section Examples
open Ref

/-- C03 is false for `k > n`: two points, a range of four entries; the third keeps whatever was there, the
last only gets a distance. -/
theorem c03_false : ∃ T, KdTree.make (euclideanTag Int 2) (metricL1 Int 2) intNum pts5 2
    (optsSliding Int 2) 10 = .ok T ∧
    T.searchKnnRange ![1, 0] [⟨9, 9⟩, ⟨8, 8⟩, ⟨7, 7⟩, ⟨6, 6⟩] =
      .ok [⟨0, 1⟩, ⟨1, 4⟩, ⟨7, 7⟩, ⟨6, 2147483647⟩] := by
  obtain ⟨T, h1, h2⟩ := Outcome.exists_of_check (x := KdTree.make (euclideanTag Int 2) (metricL1 Int 2)
    intNum pts5 2 (optsSliding Int 2) 10)
    (p := fun T => decide (T.searchKnnRange ![1, 0] [⟨9, 9⟩, ⟨8, 8⟩, ⟨7, 7⟩, ⟨6, 6⟩] =
      .ok [⟨0, 1⟩, ⟨1, 4⟩, ⟨7, 7⟩, ⟨6, 2147483647⟩])) (by decide +kernel)
  exact ⟨T, h1, of_decide_eq_true h2⟩

/-- One point at distance `max()`. -/
def farPoint : Nat → Pt Int 1 := fun _ => ![2147483647]

/-- C44 is false as stated: a point whose distance is exactly `numeric_limits<int>::max()` (no overflow is
involved) is not found; the index left in the result is whatever was there before, for `search_nn` and
for `search_knn`. -/
theorem c44_false : ∃ T, KdTree.make (euclideanTag Int 1) (metricL1 Int 1) intNum farPoint 1
    (optsSliding Int 1) 10 = .ok T ∧
    T.searchNn ![0] ⟨77, 0⟩ = ⟨77, 2147483647⟩ ∧ T.searchKnn ![0] 1 [⟨77, 0⟩] = .ok [⟨77, 2147483647⟩] := by
  obtain ⟨T, h1, h2⟩ := Outcome.exists_of_check (x := KdTree.make (euclideanTag Int 1) (metricL1 Int 1)
    intNum farPoint 1 (optsSliding Int 1) 10)
    (p := fun T => decide (T.searchNn ![0] ⟨77, 0⟩ = ⟨77, 2147483647⟩) &&
      decide (T.searchKnn ![0] 1 [⟨77, 0⟩] = .ok [⟨77, 2147483647⟩])) (by decide +kernel)
  rw [Bool.and_eq_true] at h2
  exact ⟨T, h1, of_decide_eq_true h2.1, of_decide_eq_true h2.2⟩

/-- C40 and C26 on the five points. -/
example : ∃ T, KdTree.make (euclideanTag Int 2) (metricL1 Int 2) intNum pts5 5 (optsSliding Int 2) 10
      = .ok T ∧ QueriesAgree T ![5, 5] ∧
      T.searchKnn ![5, 5] 3 [⟨1, 2⟩] = .ok [⟨3, 4⟩, ⟨2, 4⟩, ⟨1, 5⟩] := by
  obtain ⟨T, h1, h2⟩ := Outcome.exists_of_check (x := KdTree.make (euclideanTag Int 2) (metricL1 Int 2)
    intNum pts5 5 (optsSliding Int 2) 10)
    (p := fun T => decide (T.searchKnn ![5, 5] 3 [⟨1, 2⟩] = .ok [⟨3, 4⟩, ⟨2, 4⟩, ⟨1, 5⟩]))
    (by decide +kernel)
  exact ⟨T, h1, c40_euclidean additive_l1 h1 representable_pts5 (by decide) ![5, 5] (by decide +kernel),
    of_decide_eq_true h2⟩

end Examples

end Pico.Props
