import Verif.Proof.Visitor
import Verif.Model.KdTree
import Mathlib.Algebra.Order.Ring.Defs
import Mathlib.Algebra.BigOperators.Fin
import Mathlib.Tactic.Linarith
import Mathlib.Tactic.Ring

/-! # From the traversal to the queries of the public class -/

set_option linter.unusedSectionVars false

namespace Pico

section
variable {α : Type} [LinearOrder α] [Zero α] [Add α] [Sub α] {d : Nat} {β : Type}

/-- The traversal for query `q` on tree `T` is exact: whatever the visitor (with a `max()` that
never grows), every point is presented once with its distance, except for points that are farther
away than the final `max()`. -/
def ExactAt (T : KdTree α d β) (q : Pt α d) : Prop :=
  ∀ (σ : Type) (V : Visitor α σ) (Inv : σ → Prop) (s : σ),
    Shrinks V (fun i => T.metric.dist q (T.pts i)) (· < T.n) Inv → Inv s →
    ∃ vis skip, (vis ++ skip).Perm (List.range T.n) ∧
      T.searchNearest q V s = visitAll V (fun i => T.metric.dist q (T.pts i)) vis s ∧
      ∀ i ∈ skip, V.max (T.searchNearest q V s) < T.metric.dist q (T.pts i)

variable {T : KdTree α d β} {q : Pt α d}

theorem perm_range_mem {n : Nat} {vis skip : List Nat} (h : (vis ++ skip).Perm (List.range n)) :
    ∀ i, i < n ↔ i ∈ vis ∨ i ∈ skip := by
  intro i
  rw [← List.mem_range, ← h.mem_iff, List.mem_append]

/-- A finished search: every point was presented once with its distance, except for points that are at
least as far away as the final `max()`. -/
def Final {σ : Type} (n : Nat) (dist : Nat → α) (V : Visitor α σ) (s t : σ) : Prop :=
  ∃ vis skip, (vis ++ skip).Perm (List.range n) ∧ t = visitAll V dist vis s ∧
    ∀ i ∈ skip, V.max t ≤ dist i

theorem ExactAt.final (h : ExactAt T q) {σ : Type} (V : Visitor α σ) (Inv : σ → Prop) (s : σ)
    (hV : Shrinks V (fun i => T.metric.dist q (T.pts i)) (· < T.n) Inv) (hs : Inv s) :
    Final T.n (fun i => T.metric.dist q (T.pts i)) V s (T.searchNearest q V s) := by
  obtain ⟨vis, skip, hp, he, hk⟩ := h σ V Inv s hV hs
  exact ⟨vis, skip, hp, he, fun i hi => (hk i hi).le⟩

section Final
variable {n : Nat} {dist : Nat → α} {N : Num α}

theorem Final.nn {t : Neighbor α} {nn : Neighbor α} (h : Final n dist nnVisitor (nnInit N nn) t)
    (hn : 0 < n) (hbig : ∀ i < n, dist i < N.big) : Spec.IsNN n dist t := by
  obtain ⟨vis, skip, hp, he, hk⟩ := h
  rw [he] at hk ⊢
  have hmem := perm_range_mem hp
  rcases nn_visitAll dist vis (nnInit N nn) with
    ⟨h1, h2⟩ | ⟨i, hi, h1, h2, h3⟩
  · exfalso
    rw [h1] at hk
    rcases (hmem 0).1 hn with h0 | h0
    · exact absurd (hbig 0 hn) (not_lt.2 (h2 0 h0))
    · exact absurd (hbig 0 hn) (not_lt.2 (hk 0 h0))
  · rw [h1] at hk ⊢
    refine ⟨(hmem i).2 (Or.inl hi), rfl, ?_⟩
    intro j hj
    rcases (hmem j).1 hj with hj | hj
    · exact h3 j hj
    · exact hk j hj

/-- The visitor of `search_knn` is one with a `max()` that never grows. -/
theorem knnInit_shrinks (hbig : ∀ i < n, dist i < N.big) {buf : List (Neighbor α)} (hb : 0 < buf.length) :
    ∃ s Inv, knnInit N buf = .ok s ∧ Inv s ∧ Shrinks (knnVisitor N) dist (· < n) Inv := by
  obtain ⟨init, hi, hlen, hlast, hdl, hidx, hinv⟩ := knnInit_inv N buf hb
  exact ⟨⟨init, 0⟩, _, hi, ⟨[], [], [], hinv⟩,
    fun s i hi hs => shrinks_knn N dist init hlast s i (hbig i hi) hs⟩

theorem Final.knn {buf : List (Neighbor α)} {s t : KnnState α} (hs : knnInit N buf = .ok s)
    (h : Final n dist (knnVisitor N) s t) (hbig : ∀ i < n, dist i < N.big) (hb : 0 < buf.length) :
    ∃ L, t.buf = L ++ (buf.modify (buf.length - 1) fun x => { x with distance := N.big }).drop L.length ∧
      Spec.IsKnn n buf.length dist L := by
  obtain ⟨init, hi, hlen, hlast, hdl, hidx, hinv⟩ := knnInit_inv N buf hb
  rw [hi] at hs
  cases hs
  have hinit : init = buf.modify (buf.length - 1) fun x => { x with distance := N.big } := by
    have hne : buf ≠ [] := by intro h0; simp [h0] at hb
    unfold knnInit at hi
    rw [List.getLast?_eq_some_getLast hne] at hi
    simp only [Outcome.ok.injEq, KnnState.mk.injEq, and_true] at hi
    have hlt : buf.length - 1 < buf.length := by omega
    rw [List.modify_eq_set_getElem? , List.getElem?_eq_getElem hlt, ← hi, List.getLast_eq_getElem]
    rfl
  obtain ⟨vis, skip, hp, he, hk⟩ := h
  have hmem := perm_range_mem hp
  obtain ⟨L, R, hL⟩ := knn_visitAll N dist init hlast vis
    (fun i hi => hbig i ((hmem i).2 (Or.inl hi))) hinv
  rw [List.nil_append] at hL
  refine ⟨L, ?_, ?_⟩
  · rw [he, hL.buf, hinit]
  · rw [he] at hk
    change ∀ i ∈ skip, knnMax N (visitAll (knnVisitor N) dist vis ⟨init, 0⟩) ≤ dist i at hk
    have hplen : vis.length + skip.length = n := by
      have := hp.length_eq
      simpa using this
    have hLR : L.length + R.length = vis.length := by
      have := hL.perm.length_eq
      simpa using this
    have hperm : (L ++ (R ++ skip.map fun i => (⟨i, dist i⟩ : Neighbor α))).Perm
        (Spec.all n dist) := by
      unfold Spec.all
      rw [← List.append_assoc]
      refine (hL.perm.append_right _).trans ?_
      rw [← List.map_append]
      exact hp.map _
    by_cases hfull : L.length < init.length
    · have hR : R = [] := by
        by_contra hc; exact absurd (hL.full hc) hfull.ne
      have hskip : skip = [] := by
        rcases List.eq_nil_or_concat skip with h0 | ⟨l, x, h0⟩
        · exact h0
        · exfalso
          have hx : x ∈ skip := by rw [h0]; simp
          have := hk x hx
          rw [knnMax_not_full hL hlast hfull] at this
          exact absurd (hbig x ((hmem x).2 (Or.inr hx))) (not_lt.2 this)
      subst hR hskip
      simp only [List.length_nil, Nat.add_zero] at hplen hLR
      refine ⟨?_, hL.sorted, ⟨[], by simpa using hperm, by simp⟩⟩
      rw [min_eq_right]
      · omega
      · omega
    · have hfull' : L.length = init.length := le_antisymm hL.le (not_lt.1 hfull)
      obtain ⟨L0, z, hz, hmax⟩ := knnMax_full hL hfull' (by omega)
      rw [hmax] at hk
      have hsorted := hL.sorted
      rw [hz, List.pairwise_append] at hsorted
      have hlez : ∀ a ∈ L, a.distance ≤ z.distance := by
        intro a ha
        rw [hz] at ha
        rcases List.mem_append.1 ha with ha | ha
        · exact hsorted.2.2 a ha z (by simp)
        · simp only [List.mem_singleton] at ha; rw [ha]
      refine ⟨?_, hL.sorted, ⟨_, hperm, ?_⟩⟩
      · rw [hfull', hlen, min_eq_left]
        omega
      · intro a ha b hb
        rcases List.mem_append.1 hb with hb | hb
        · exact hL.rejected a ha b hb
        · obtain ⟨i, hi, rfl⟩ := List.mem_map.1 hb
          exact (hlez a ha).trans (hk i hi)

theorem Final.radius {r : α} {m t : List (Neighbor α)}
    (h : Final n dist (radiusVisitor r) (radiusInit m) t) : Spec.IsRadius n dist r t := by
  obtain ⟨vis, skip, hp, he, hk⟩ := h
  rw [radius_visitAll] at he
  change ∀ i ∈ skip, r ≤ dist i at hk
  rw [he]
  unfold Spec.IsRadius Spec.all
  have h1 := (hp.map fun i => (⟨i, dist i⟩ : Neighbor α)).filter
    fun x => decide (x.distance < r)
  refine List.Perm.trans ?_ h1
  rw [List.map_append, List.filter_append]
  have h2 : (skip.map fun i => (⟨i, dist i⟩ : Neighbor α)).filter
      (fun x => decide (x.distance < r)) = [] := by
    rw [List.filter_eq_nil_iff]
    intro x hx
    obtain ⟨i, hi, rfl⟩ := List.mem_map.1 hx
    simpa using hk i hi
  rw [h2, List.append_nil]
  simp [radiusInit]

/-- Sorting the result of a radius search. -/
theorem isRadius_sort (sorter : StdSort (Neighbor α)) {r : α} {out : List (Neighbor α)}
    (h : Spec.IsRadius n dist r out) (sort : Bool) :
    Spec.IsRadius n dist r (if sort then sorter.sort Neighbor.lt out else out) ∧
    (sort = true → (if sort then sorter.sort Neighbor.lt out else out).Pairwise
      fun a b => a.distance ≤ b.distance) := by
  cases sort with
  | false => exact ⟨h, by simp⟩
  | true =>
    simp only [if_true]
    refine ⟨(sorter.sort_perm _ _ strictWeak_neighborLt).trans h, fun _ => ?_⟩
    refine (sorter.sort_sorted _ _ strictWeak_neighborLt).imp ?_
    intro a b hab
    simpa [Neighbor.lt] using hab

end Final

theorem ExactAt.nn (h : ExactAt T q) (hn : 0 < T.n)
    (hbig : ∀ i < T.n, T.metric.dist q (T.pts i) < T.num.big) (nn : Neighbor α) :
    Spec.IsNN T.n (fun i => T.metric.dist q (T.pts i)) (T.searchNn q nn) :=
  (h.final nnVisitor (fun _ => True) (nnInit T.num nn)
    (fun s i _ hs => shrinks_nn (fun i => T.metric.dist q (T.pts i)) s i trivial hs) trivial).nn hn hbig

/-- The result of the range version of `search_knn`. -/
theorem ExactAt.knnRange (h : ExactAt T q)
    (hbig : ∀ i < T.n, T.metric.dist q (T.pts i) < T.num.big) (buf : List (Neighbor α))
    (hb : 0 < buf.length) :
    ∃ L, T.searchKnnRange q buf = .ok (L ++
        (buf.modify (buf.length - 1) fun x => { x with distance := T.num.big }).drop L.length) ∧
      Spec.IsKnn T.n buf.length (fun i => T.metric.dist q (T.pts i)) L := by
  obtain ⟨s, Inv, hs, hI, hV⟩ := knnInit_shrinks hbig hb
  obtain ⟨L, h1, h2⟩ := Final.knn hs (h.final (knnVisitor T.num) Inv s hV hI) hbig hb
  refine ⟨L, ?_, h2⟩
  unfold KdTree.searchKnnRange
  rw [hs]
  simp only [Outcome.bind, Outcome.ok.injEq]
  exact h1

theorem resize_length (k : Nat) (buf : List (Neighbor α)) : (KdTree.resize k buf).length = k := by
  simp only [KdTree.resize, List.length_append, List.length_take, List.length_replicate]
  omega

/-- The vector version of `search_knn`. -/
theorem ExactAt.knn (h : ExactAt T q) (hn : 0 < T.n)
    (hbig : ∀ i < T.n, T.metric.dist q (T.pts i) < T.num.big) (k : Nat) (hk : 0 < k)
    (knn : List (Neighbor α)) :
    ∃ out, T.searchKnn q k knn = .ok out ∧
      Spec.IsKnn T.n k (fun i => T.metric.dist q (T.pts i)) out := by
  have hlen := resize_length (min k T.n) knn
  obtain ⟨L, he, hL⟩ := h.knnRange hbig (KdTree.resize (min k T.n) knn) (by rw [hlen]; omega)
  have hLlen := hL.length
  rw [hlen] at hLlen
  refine ⟨L, ?_, ?_, hL.sorted, hL.rest⟩
  · unfold KdTree.searchKnn
    rw [he, List.drop_eq_nil_of_le, List.append_nil]
    rw [List.length_modify, hlen, hLlen]
    omega
  · rw [hLlen]; omega

theorem ExactAt.radius (h : ExactAt T q) (sorter : StdSort (Neighbor α)) (r : α)
    (n : List (Neighbor α)) (sort : Bool) :
    Spec.IsRadius T.n (fun i => T.metric.dist q (T.pts i)) r (T.searchRadius sorter q r n sort) ∧
    (sort = true → (T.searchRadius sorter q r n sort).Pairwise
      fun a b => a.distance ≤ b.distance) :=
  isRadius_sort sorter (h.final (radiusVisitor r) (fun _ => True) (radiusInit n)
    (fun s i _ hs => shrinks_radius (fun i => T.metric.dist q (T.pts i)) r s i trivial hs)
    trivial).radius sort

end

end Pico
