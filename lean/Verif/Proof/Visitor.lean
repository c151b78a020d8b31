import Verif.Model.Visitor
import Verif.Model.Search
import Verif.Proof.Search
import Verif.Spec

/-! # The visitors -/

set_option linter.unusedSectionVars false

namespace Pico

section NN
variable {α : Type} [LinearOrder α]

theorem shrinks_nn (dist : Nat → α) : Shrinks nnVisitor dist (fun _ => True) (fun _ => True) := by
  intro s i _ _
  refine ⟨trivial, ?_⟩
  simp only [nnVisitor]
  split_ifs with h
  · exact h.le
  · exact le_rfl

theorem nn_visitAll (dist : Nat → α) (l : List Nat) (s : Neighbor α) :
    (visitAll nnVisitor dist l s = s ∧ ∀ i ∈ l, s.distance ≤ dist i) ∨
    (∃ i ∈ l, visitAll nnVisitor dist l s = ⟨i, dist i⟩ ∧ dist i < s.distance ∧
      ∀ j ∈ l, dist i ≤ dist j) := by
  induction l generalizing s with
  | nil => left; simp [visitAll]
  | cons a l ih =>
    have hs : visitAll nnVisitor dist (a :: l) s =
        visitAll nnVisitor dist l (nnVisitor.visit s a (dist a)) := rfl
    rw [hs]
    by_cases h : s.distance > dist a
    · have hv : nnVisitor.visit s a (dist a) = ⟨a, dist a⟩ := by simp [nnVisitor, h]
      rw [hv]
      right
      rcases ih ⟨a, dist a⟩ with ⟨h1, h2⟩ | ⟨i, hi, h1, h2, h3⟩
      · refine ⟨a, by simp, h1, h, ?_⟩
        intro j hj
        rcases List.mem_cons.1 hj with rfl | hj
        · exact le_rfl
        · exact h2 j hj
      · refine ⟨i, by simp [hi], h1, lt_trans h2 h, ?_⟩
        intro j hj
        rcases List.mem_cons.1 hj with rfl | hj
        · exact h2.le
        · exact h3 j hj
    · have hv : nnVisitor.visit s a (dist a) = s := by simp [nnVisitor, h]
      rw [hv]
      rcases ih s with ⟨h1, h2⟩ | ⟨i, hi, h1, h2, h3⟩
      · left
        refine ⟨h1, ?_⟩
        intro j hj
        rcases List.mem_cons.1 hj with rfl | hj
        · exact not_lt.1 h
        · exact h2 j hj
      · right
        refine ⟨i, by simp [hi], h1, h2, ?_⟩
        intro j hj
        rcases List.mem_cons.1 hj with rfl | hj
        · exact h2.le.trans (not_lt.1 h)
        · exact h3 j hj

end NN

section Radius
variable {α : Type} [LinearOrder α]

theorem shrinks_radius (dist : Nat → α) (r : α) :
    Shrinks (radiusVisitor r) dist (fun _ => True) (fun _ => True) := by
  intro s i _ _
  exact ⟨trivial, le_rfl⟩

theorem radius_visitAll (dist : Nat → α) (r : α) (l : List Nat) (s : List (Neighbor α)) :
    visitAll (radiusVisitor r) dist l s =
      s ++ (l.map fun i => (⟨i, dist i⟩ : Neighbor α)).filter fun x => decide (x.distance < r) := by
  induction l generalizing s with
  | nil => simp [visitAll]
  | cons a l ih =>
    have hs : visitAll (radiusVisitor r) dist (a :: l) s =
        visitAll (radiusVisitor r) dist l ((radiusVisitor r).visit s a (dist a)) := rfl
    rw [hs, ih]
    by_cases h : r > dist a
    · simp [radiusVisitor, h]
    · simp [radiusVisitor, h]

end Radius

section Knn
variable {α : Type} [LinearOrder α]

/-- Insertion into a sorted list, after elements of equal distance. -/
def ins (x : Neighbor α) : List (Neighbor α) → List (Neighbor α)
  | [] => [x]
  | y :: l => if x.distance < y.distance then x :: y :: l else y :: ins x l

theorem ins_perm (x : Neighbor α) (l : List (Neighbor α)) : (ins x l).Perm (x :: l) := by
  induction l with
  | nil => exact List.Perm.refl _
  | cons y l ih =>
    unfold ins
    split_ifs
    · exact List.Perm.refl _
    · exact (ih.cons y).trans (List.Perm.swap _ _ _)

theorem ins_length (x : Neighbor α) (l : List (Neighbor α)) : (ins x l).length = l.length + 1 := by
  rw [(ins_perm x l).length_eq, List.length_cons]

theorem ins_sorted (x : Neighbor α) (l : List (Neighbor α))
    (h : l.Pairwise fun a b => a.distance ≤ b.distance) :
    (ins x l).Pairwise fun a b => a.distance ≤ b.distance := by
  induction l with
  | nil => simp [ins]
  | cons y l ih =>
    rw [List.pairwise_cons] at h
    unfold ins
    split_ifs with hx
    · rw [List.pairwise_cons, List.pairwise_cons]
      refine ⟨?_, h⟩
      intro a ha
      rcases List.mem_cons.1 ha with rfl | ha
      · exact hx.le
      · exact hx.le.trans (h.1 a ha)
    · rw [List.pairwise_cons]
      refine ⟨?_, ih h.2⟩
      intro a ha
      rcases List.mem_cons.1 ((ins_perm x l).subset ha) with rfl | ha
      · exact not_lt.1 hx
      · exact h.1 a ha

theorem ins_append_of_lt (x y : Neighbor α) (l : List (Neighbor α)) (h : x.distance < y.distance) :
    ins x (l ++ [y]) = ins x l ++ [y] := by
  induction l with
  | nil => simp [ins, h]
  | cons a l ih =>
    rw [List.cons_append]
    unfold ins
    split_ifs <;> simp [ih]

theorem ins_append_of_ge (x : Neighbor α) (l : List (Neighbor α))
    (h : ∀ y ∈ l, y.distance ≤ x.distance) : ins x l = l ++ [x] := by
  induction l with
  | nil => rfl
  | cons a l ih =>
    unfold ins
    rw [if_neg (not_lt.2 (h a (by simp))), ih (fun y hy => h y (by simp [hy]))]
    rfl

/-- `insert_sorted` on a buffer whose first `A.length` entries are sorted: inserts into them and
overwrites the next entry. -/
theorem insertLoop_eq (item : Neighbor α) (A : List (Neighbor α)) (y : Neighbor α)
    (B : List (Neighbor α)) (hA : A.Pairwise fun a b => a.distance ≤ b.distance) :
    insertLoop item (A ++ y :: B) A.length = ins item A ++ B := by
  induction A using List.reverseRecOn generalizing y B with
  | nil => simp [insertLoop, ins]
  | append_singleton A a ih =>
    rw [List.length_append, List.length_singleton]
    unfold insertLoop
    have hget : ((A ++ [a]) ++ y :: B)[A.length]? = some a := by
      simp
    rw [hget]
    simp only [Neighbor.lt, decide_eq_true_eq]
    have hset : ∀ z : Neighbor α, ((A ++ [a]) ++ y :: B).set (A.length + 1) z = A ++ a :: z :: B := by
      intro z
      simp
    rw [List.pairwise_append] at hA
    split_ifs with h
    · rw [hset, ih a (a :: B) hA.1, ins_append_of_lt _ _ _ h]
      simp
    · rw [hset, ins_append_of_ge item (A ++ [a])]
      · simp
      · intro z hz
        rcases List.mem_append.1 hz with hz | hz
        · exact (hA.2.2 z hz a (by simp)).trans (not_lt.1 h)
        · simp only [List.mem_singleton] at hz
          rw [hz]
          exact not_lt.1 h

/-- Invariant of the k-nn visitor after presenting `seen`, started with the range `init` of length
`k > 0`: the active part `L` is sorted, `R` are the rejected neighbors, the inactive entries are
those of `init`, with the sentinel in the last one. -/
structure KnnInv (N : Num α) (init : List (Neighbor α)) (seen : List (Neighbor α))
    (s : KnnState α) (L R : List (Neighbor α)) : Prop where
  buf : s.buf = L ++ init.drop L.length
  active : s.active = L.length
  le : L.length ≤ init.length
  sorted : L.Pairwise fun a b => a.distance ≤ b.distance
  perm : (L ++ R).Perm seen
  rejected : ∀ a ∈ L, ∀ b ∈ R, a.distance ≤ b.distance
  full : R ≠ [] → L.length = init.length
  small : ∀ a ∈ L, a.distance < N.big

theorem knnMax_not_full {N : Num α} {init seen : List (Neighbor α)} {s : KnnState α}
    {L R : List (Neighbor α)} (h : KnnInv N init seen s L R)
    (hlast : ∃ x, init.getLast? = some x ∧ x.distance = N.big) (hl : L.length < init.length) :
    knnMax N s = N.big := by
  obtain ⟨x, hx, hd⟩ := hlast
  unfold knnMax
  rw [h.buf, List.getLast?_append]
  have : (init.drop L.length).getLast? = some x := by
    rw [List.getLast?_drop, if_neg (by omega), hx]
  rw [this]
  simpa using hd

theorem knnMax_full {N : Num α} {init seen : List (Neighbor α)} {s : KnnState α}
    {L R : List (Neighbor α)} (h : KnnInv N init seen s L R)
    (hl : L.length = init.length) (hpos : 0 < init.length) :
    ∃ L' x, L = L' ++ [x] ∧ knnMax N s = x.distance := by
  have hne : L ≠ [] := by
    intro h0; rw [h0] at hl; simp at hl; omega
  refine ⟨L.dropLast, L.getLast hne, (List.dropLast_append_getLast hne).symm, ?_⟩
  unfold knnMax
  rw [h.buf, hl, List.drop_length, List.append_nil, List.getLast?_eq_some_getLast hne]

/-- One call of the k-nn visitor. -/
theorem knnVisit_inv {N : Num α} {init seen : List (Neighbor α)} {s : KnnState α}
    {L R : List (Neighbor α)} (h : KnnInv N init seen s L R)
    (hlast : ∃ x, init.getLast? = some x ∧ x.distance = N.big) (i : Nat) (x : α) (hx : x < N.big) :
    (∃ L' R', KnnInv N init (seen ++ [⟨i, x⟩]) (knnVisit N s i x) L' R') ∧
      knnMax N (knnVisit N s i x) ≤ knnMax N s := by
  have hpos : 0 < init.length := by
    obtain ⟨y, hy, _⟩ := hlast
    cases init with
    | nil => simp at hy
    | cons _ _ => simp
  by_cases hfull : L.length < init.length
  · -- not full yet
    have hmax := knnMax_not_full h hlast hfull
    have hR : R = [] := by
      by_contra hc
      exact absurd (h.full hc) hfull.ne
    subst hR
    obtain ⟨y, B, hyB⟩ : ∃ y B, init.drop L.length = y :: B := by
      cases hd : init.drop L.length with
      | nil => rw [List.drop_eq_nil_iff] at hd; omega
      | cons y B => exact ⟨y, B, rfl⟩
    have hB : B = init.drop (L.length + 1) := by
      have := congrArg List.tail hyB
      simpa using this.symm
    have hvis : knnVisit N s i x = ⟨ins ⟨i, x⟩ L ++ B, L.length + 1⟩ := by
      unfold knnVisit
      rw [hmax, if_pos hx, h.active]
      have hbl : s.buf.length = init.length := by
        rw [h.buf]; simp; omega
      rw [hbl, if_pos hfull]
      unfold insertSorted
      dsimp only
      rw [h.buf, hyB, Nat.add_sub_cancel, insertLoop_eq _ _ _ _ h.sorted]
    have hinv : KnnInv N init (seen ++ [⟨i, x⟩]) (knnVisit N s i x) (ins ⟨i, x⟩ L) [] := by
      refine ⟨?_, ?_, ?_, ins_sorted _ _ h.sorted, ?_, by simp, by simp, ?_⟩
      · rw [hvis, ins_length, hB]
      · rw [hvis, ins_length]
      · rw [ins_length]; omega
      · rw [List.append_nil]
        have := h.perm
        rw [List.append_nil] at this
        exact (ins_perm _ _).trans ((this.cons _).trans (List.perm_append_singleton _ _).symm)
      · intro a ha
        rcases List.mem_cons.1 ((ins_perm _ _).subset ha) with rfl | ha
        · exact hx
        · exact h.small a ha
    refine ⟨⟨_, _, hinv⟩, ?_⟩
    rw [hmax]
    by_cases hf2 : (ins ⟨i, x⟩ L).length < init.length
    · rw [knnMax_not_full hinv hlast hf2]
    · have hf3 : (ins ⟨i, x⟩ L).length = init.length := le_antisymm hinv.le (not_lt.1 hf2)
      obtain ⟨L', z, hz, hm⟩ := knnMax_full hinv hf3 hpos
      rw [hm]
      exact (hinv.small z (by rw [hz]; simp)).le
  · have hfull' : L.length = init.length := le_antisymm h.le (not_lt.1 hfull)
    obtain ⟨L0, z, hz, hmax⟩ := knnMax_full h hfull' hpos
    have hsorted := h.sorted
    rw [hz, List.pairwise_append] at hsorted
    have hlez : ∀ a ∈ L, a.distance ≤ z.distance := by
      intro a ha
      rw [hz] at ha
      rcases List.mem_append.1 ha with ha | ha
      · exact hsorted.2.2 a ha z (by simp)
      · simp only [List.mem_singleton] at ha; rw [ha]
    by_cases hc : knnMax N s > x
    · have hvis : knnVisit N s i x = ⟨ins ⟨i, x⟩ L0, L.length⟩ := by
        unfold knnVisit
        rw [if_pos hc, h.active]
        have hbuf : s.buf = L := by rw [h.buf, hfull', List.drop_length, List.append_nil]
        rw [hbuf, if_neg (lt_irrefl _)]
        unfold insertSorted
        have hL : L.length - 1 = L0.length := by rw [hz]; simp
        dsimp only
        rw [hL]
        conv_lhs => rw [hz]
        rw [ insertLoop_eq _ _ _ _ hsorted.1, List.append_nil, ← hz]
      have hlen : (ins ⟨i, x⟩ L0).length = init.length := by
        rw [ins_length, ← hfull', hz]; simp
      rw [hmax] at hc
      have hle : ∀ a ∈ ins (⟨i, x⟩ : Neighbor α) L0, a.distance ≤ z.distance := by
        intro a ha
        rcases List.mem_cons.1 ((ins_perm _ _).subset ha) with rfl | ha
        · exact hc.le
        · exact hsorted.2.2 a ha z (by simp)
      have hinv : KnnInv N init (seen ++ [⟨i, x⟩]) (knnVisit N s i x) (ins ⟨i, x⟩ L0) (z :: R) := by
        refine ⟨?_, ?_, ?_, ins_sorted _ _ hsorted.1, ?_, ?_, ?_, ?_⟩
        · rw [hvis, hlen, List.drop_length, List.append_nil]
        · rw [hvis, hlen, hfull']
        · rw [hlen]
        · have hp := h.perm
          rw [hz] at hp
          refine List.Perm.trans ?_ (List.perm_append_singleton _ _).symm
          refine List.Perm.trans ?_ (hp.cons _)
          refine ((ins_perm _ _).append_right _).trans ?_
          simp
        · intro a ha b hb
          rcases List.mem_cons.1 hb with rfl | hb
          · exact hle a ha
          · exact (hle a ha).trans (h.rejected z (by rw [hz]; simp) b hb)
        · intro _; exact hlen
        · intro a ha
          exact lt_of_le_of_lt (hle a ha) (h.small z (by rw [hz]; simp))
      refine ⟨⟨_, _, hinv⟩, ?_⟩
      obtain ⟨L', w, hw, hm⟩ := knnMax_full hinv hlen hpos
      rw [hm, hmax]
      exact hle w (by rw [hw]; simp)
    · have hvis : knnVisit N s i x = s := by
        unfold knnVisit
        rw [if_neg hc]
      rw [hvis]
      refine ⟨⟨L, R ++ [⟨i, x⟩], h.buf, h.active, h.le, h.sorted, ?_, ?_, fun _ => hfull', h.small⟩,
        le_rfl⟩
      · rw [← List.append_assoc]
        exact h.perm.append_right _
      · intro a ha b hb
        rcases List.mem_append.1 hb with hb | hb
        · exact h.rejected a ha b hb
        · simp only [List.mem_singleton] at hb
          subst hb
          rw [hmax] at hc
          exact (hlez a ha).trans (not_lt.1 hc)

/-- The k-nn visitor satisfies the requirements of the traversal on points closer than `big`. -/
theorem shrinks_knn (N : Num α) (dist : Nat → α) (init : List (Neighbor α))
    (hlast : ∃ x, init.getLast? = some x ∧ x.distance = N.big) :
    Shrinks (knnVisitor N) dist (fun i => dist i < N.big)
      (fun s => ∃ seen L R, KnnInv N init seen s L R) := by
  rintro s i hi ⟨seen, L, R, h⟩
  obtain ⟨⟨L', R', h'⟩, hm⟩ := knnVisit_inv h hlast i (dist i) hi
  exact ⟨⟨_, L', R', h'⟩, hm⟩

theorem knn_visitAll (N : Num α) (dist : Nat → α) (init : List (Neighbor α))
    (hlast : ∃ x, init.getLast? = some x ∧ x.distance = N.big) (l : List Nat)
    (hl : ∀ i ∈ l, dist i < N.big) {seen : List (Neighbor α)} {s : KnnState α}
    {L R : List (Neighbor α)} (h : KnnInv N init seen s L R) :
    ∃ L' R', KnnInv N init (seen ++ l.map fun i => ⟨i, dist i⟩)
      (visitAll (knnVisitor N) dist l s) L' R' := by
  induction l generalizing seen s L R with
  | nil => exact ⟨L, R, by simpa [visitAll] using h⟩
  | cons a l ih =>
    obtain ⟨⟨L', R', h'⟩, _⟩ := knnVisit_inv h hlast a (dist a) (hl a (by simp))
    have := ih (fun i hi => hl i (by simp [hi])) h'
    simpa [visitAll, knnVisitor] using this

/-- The state after the constructor of the k-nn visitor. -/
theorem knnInit_inv (N : Num α) (buf : List (Neighbor α)) (hb : 0 < buf.length) :
    ∃ init, knnInit N buf = .ok ⟨init, 0⟩ ∧ init.length = buf.length ∧
      (∃ x, init.getLast? = some x ∧ x.distance = N.big) ∧
      (init.dropLast = buf.dropLast) ∧
      (∀ x, init.getLast? = some x → ∃ y, buf.getLast? = some y ∧ x.index = y.index) ∧
      KnnInv N init [] ⟨init, 0⟩ [] [] := by
  have hne : buf ≠ [] := by intro h; simp [h] at hb
  obtain ⟨L, x, rfl⟩ : ∃ L x, buf = L ++ [x] :=
    ⟨buf.dropLast, buf.getLast hne, (List.dropLast_append_getLast hne).symm⟩
  refine ⟨L ++ [{ x with distance := N.big }], ?_, ?_, ?_, ?_, ?_, ?_⟩
  · simp [knnInit]
  · simp
  · exact ⟨_, by simp; rfl, rfl⟩
  · simp
  · intro y hy
    simp at hy
    exact ⟨x, by simp, by rw [← hy]⟩
  · exact ⟨by simp, rfl, by simp, by simp, by simp, by simp, by simp, by simp⟩

end Knn

end Pico
