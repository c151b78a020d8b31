import Verif.Proof.Topo
import Verif.Proof.Approx

/-!
# Two traversals compared

`searchNearest_pair`: if `max()` of the first visitor never exceeds the one of the second, as long as the second has
seen what the first has seen and otherwise only points out of reach of the first, then the first traversal looks at no
point that the second does not look at.
-/

namespace Pico

section Pair
variable {α : Type} [LinearOrder α] [Zero α] [Add α] [Sub α] {d : Nat} {β σ σ' : Type}

variable (splitDim : β → Fin d) (pick : β → Bool × α) (V : Visitor α σ) (V' : Visitor α σ') (dist : Nat → α)
  (indices : List Nat)

/-- The second visitor has seen `w'`, the first `w`; what only the second has seen (`skip`) is out of reach of the
first. -/
def Ahead (s : σ) (w w' : List Nat) : Prop :=
  ∃ skip, (w ++ skip).Perm w' ∧ ∀ i ∈ skip, V.max (visitAll V dist w s) < dist i

/-- `max()` of the first visitor is the smaller one, whenever the second is ahead. -/
def Dominated (A : Nat → Prop) (s : σ) (s' : σ') : Prop :=
  ∀ w w', (∀ i ∈ w', A i) → Ahead V dist s w w' → V.max (visitAll V dist w s) ≤ V'.max (visitAll V' dist w' s')

variable {V V' dist} in
omit [Zero α] [Add α] [Sub α] in
theorem Ahead.both {s : σ} {w w' : List Nat} {A : Nat → Prop} {Inv : σ → Prop} (hV : Shrinks V dist A Inv)
    (h : Ahead V dist s w w') (v : List Nat) (hw : ∀ i ∈ w', A i) (hv : ∀ i ∈ v, A i) (hI : Inv s) :
    Ahead V dist s (w ++ v) (w' ++ v) := by
  obtain ⟨skip, h1, h2⟩ := h
  refine ⟨skip, ?_, fun i hi => ?_⟩
  · refine List.Perm.trans ?_ (h1.append_right v)
    rw [List.append_assoc, List.append_assoc]
    exact List.Perm.append_left _ List.perm_append_comm
  · rw [visitAll_append]
    have hw1 : ∀ i ∈ w, A i := fun i hi => hw i (h1.subset (List.mem_append_left _ hi))
    exact lt_of_le_of_lt (hV.visitAll v hv _ (hV.visitAll w hw1 s hI).1).2 (h2 i hi)

theorem searchNearest_pair (term : Fin d → Nat → α) (P : α → Pt α d → Prop)
    (hstep : ∀ D off j x, P D off → P (D - off j + x) (Function.update off j x))
    (A : Nat → Prop)
    (hlower : ∀ D off i, A i → P D off → (∀ j, off j ≤ term j i) → D ≤ dist i) (Inv : σ → Prop)
    (hV : Shrinks V dist A Inv) (s : σ) (s' : σ') (hI : Inv s) (hdom : Dominated V V' dist A s s')
    (t : Tree β) (D : α) (off : Pt α d) (hA : ∀ i ∈ t.elems indices, A i)
    (hG : Guard splitDim pick indices term t) (hP : P D off) (hoff : ∀ i ∈ t.elems indices, ∀ j, off j ≤ term j i)
    (w w' : List Nat) (hw : ∀ i ∈ w', A i) (hah : Ahead V dist s w w') :
    ∃ v v' : List Nat, v.Sublist v' ∧ (∀ i ∈ v', i ∈ t.elems indices) ∧ Ahead V dist s (w ++ v) (w' ++ v') ∧
      searchNearest splitDim pick V dist indices t D (off, visitAll V dist w s) =
        (off, visitAll V dist (w ++ v) s) ∧
      searchNearest splitDim pick V' dist indices t D (off, visitAll V' dist w' s') =
        (off, visitAll V' dist (w' ++ v') s') := by
  induction t generalizing D off w w' with
  | leaf b e =>
    refine ⟨slice indices b e, slice indices b e, .refl _, fun i hi => hi, hah.both hV _ hw hA hI, ?_, ?_⟩
    · rw [searchNearest, visitAll_append]
    · rw [searchNearest, visitAll_append]
  | branch data l r ihl ihr =>
    have key : ∀ (t1 t2 : Tree β),
        (∀ (D : α) (off : Pt α d), P D off → (∀ i ∈ t1.elems indices, ∀ j, off j ≤ term j i) →
          ∀ (w w' : List Nat), (∀ i ∈ w', A i) → Ahead V dist s w w' →
          ∃ v v' : List Nat, v.Sublist v' ∧ (∀ i ∈ v', i ∈ t1.elems indices) ∧ Ahead V dist s (w ++ v) (w' ++ v') ∧
            searchNearest splitDim pick V dist indices t1 D (off, visitAll V dist w s) =
              (off, visitAll V dist (w ++ v) s) ∧
            searchNearest splitDim pick V' dist indices t1 D (off, visitAll V' dist w' s') =
              (off, visitAll V' dist (w' ++ v') s')) →
        (∀ (D : α) (off : Pt α d), P D off → (∀ i ∈ t2.elems indices, ∀ j, off j ≤ term j i) →
          ∀ (w w' : List Nat), (∀ i ∈ w', A i) → Ahead V dist s w w' →
          ∃ v v' : List Nat, v.Sublist v' ∧ (∀ i ∈ v', i ∈ t2.elems indices) ∧ Ahead V dist s (w ++ v) (w' ++ v') ∧
            searchNearest splitDim pick V dist indices t2 D (off, visitAll V dist w s) =
              (off, visitAll V dist (w ++ v) s) ∧
            searchNearest splitDim pick V' dist indices t2 D (off, visitAll V' dist w' s') =
              (off, visitAll V' dist (w' ++ v') s')) →
        (∀ i ∈ t1.elems indices, i ∈ (Tree.branch data l r).elems indices) →
        (∀ i ∈ t2.elems indices, i ∈ (Tree.branch data l r).elems indices) →
        (∀ i ∈ t2.elems indices, (pick data).2 ≤ term (splitDim data) i) →
        ∃ v v' : List Nat, v.Sublist v' ∧ (∀ i ∈ v', i ∈ (Tree.branch data l r).elems indices) ∧
          Ahead V dist s (w ++ v) (w' ++ v') ∧
          (let st1 := searchNearest splitDim pick V dist indices t1 D (off, visitAll V dist w s)
           let oldOffset := st1.1 (splitDim data)
           let D' := D - oldOffset + (pick data).2
           if V.max st1.2 ≥ D' then
            let st' := (Function.update st1.1 (splitDim data) (pick data).2, st1.2)
            let st2 := searchNearest splitDim pick V dist indices t2 D' st'
            (Function.update st2.1 (splitDim data) oldOffset, st2.2)
           else st1) = (off, visitAll V dist (w ++ v) s) ∧
          (let st1 := searchNearest splitDim pick V' dist indices t1 D (off, visitAll V' dist w' s')
           let oldOffset := st1.1 (splitDim data)
           let D' := D - oldOffset + (pick data).2
           if V'.max st1.2 ≥ D' then
            let st' := (Function.update st1.1 (splitDim data) (pick data).2, st1.2)
            let st2 := searchNearest splitDim pick V' dist indices t2 D' st'
            (Function.update st2.1 (splitDim data) oldOffset, st2.2)
           else st1) = (off, visitAll V' dist (w' ++ v') s') := by
      intro t1 t2 h1 h2 hs1 hs2 hg
      obtain ⟨v, v', hsub, hmem, hah1, he, he'⟩ := h1 D off hP (fun i hi => hoff i (hs1 i hi)) w w' hw hah
      have hw1 : ∀ i ∈ w' ++ v', A i := fun i hi => (List.mem_append.1 hi).elim (hw i) fun hi => hA i (hs1 i (hmem i hi))
      dsimp only
      rw [he, he']
      dsimp only
      have hP' := hstep D off (splitDim data) (pick data).2 hP
      have hoff' : ∀ i ∈ t2.elems indices, ∀ j, Function.update off (splitDim data) (pick data).2 j ≤ term j i := by
        intro i hi j
        by_cases hj : j = splitDim data
        · subst hj; simpa using hg i hi
        · simpa [Function.update, hj] using hoff i (hs2 i hi) j
      have hle := hdom _ _ hw1 hah1
      have hrestore : Function.update (Function.update off (splitDim data) (pick data).2) (splitDim data)
          (off (splitDim data)) = off := by simp
      by_cases hc : V.max (visitAll V dist (w ++ v) s) ≥ D - off (splitDim data) + (pick data).2
      · rw [if_pos hc, if_pos (le_trans hc hle)]
        obtain ⟨x, x', gsub, gmem, gah, ge, ge'⟩ := h2 _ _ hP' hoff' _ _ hw1 hah1
        refine ⟨v ++ x, v' ++ x', hsub.append gsub, fun i hi => ?_, ?_, ?_, ?_⟩
        · exact (List.mem_append.1 hi).elim (fun hi => hs1 i (hmem i hi)) fun hi => hs2 i (gmem i hi)
        · rw [← List.append_assoc, ← List.append_assoc]; exact gah
        · rw [ge]
          dsimp only
          rw [hrestore, List.append_assoc]
        · rw [ge']
          dsimp only
          rw [hrestore, List.append_assoc]
      · rw [if_neg hc]
        by_cases hc' : V'.max (visitAll V' dist (w' ++ v') s') ≥ D - off (splitDim data) + (pick data).2
        · rw [if_pos hc']
          obtain ⟨x', skip, gp, ge⟩ := searchNearest_struct splitDim pick V' dist indices t2
            (D - off (splitDim data) + (pick data).2)
            (Function.update off (splitDim data) (pick data).2, visitAll V' dist (w' ++ v') s')
          have gmem : ∀ i ∈ x', i ∈ t2.elems indices := fun i hi => gp.subset (List.mem_append_left _ hi)
          refine ⟨v, v' ++ x', hsub.trans (List.sublist_append_left _ _), fun i hi => ?_, ?_, rfl, ?_⟩
          · exact (List.mem_append.1 hi).elim (fun hi => hs1 i (hmem i hi)) fun hi => hs2 i (gmem i hi)
          · obtain ⟨sk, k1, k2⟩ := hah1
            refine ⟨sk ++ x', ?_, fun i hi => ?_⟩
            · rw [← List.append_assoc, ← List.append_assoc]
              exact k1.append_right _
            · rcases List.mem_append.1 hi with hi | hi
              · exact k2 i hi
              · exact lt_of_lt_of_le (not_le.1 hc)
                  (hlower _ _ i (hA i (hs2 i (gmem i hi))) hP' (hoff' i (gmem i hi)))
          · rw [ge]
            dsimp only
            rw [hrestore, ← visitAll_append, List.append_assoc]
        · rw [if_neg hc']
          exact ⟨v, v', hsub, fun i hi => hs1 i (hmem i hi), hah1, rfl, rfl⟩
    have hsl : ∀ i ∈ l.elems indices, i ∈ (Tree.branch data l r).elems indices :=
      fun i hi => List.mem_append_left _ hi
    have hsr : ∀ i ∈ r.elems indices, i ∈ (Tree.branch data l r).elems indices :=
      fun i hi => List.mem_append_right _ hi
    have ihl' := fun D off hP ho w w' hw hah => ihl D off (fun i hi => hA i (hsl i hi)) hG.2.1 hP ho w w' hw hah
    have ihr' := fun D off hP ho w w' hw hah => ihr D off (fun i hi => hA i (hsr i hi)) hG.2.2 hP ho w w' hw hah
    cases hb : (pick data).1 with
    | true =>
      have hg := hG.1
      simp only [hb, if_true] at hg
      obtain ⟨v, v', h1, h2, h3, h4, h5⟩ := key l r ihl' ihr' hsl hsr hg
      refine ⟨v, v', h1, h2, h3, ?_, ?_⟩
      · rw [← h4]
        simp only [searchNearest, hb, if_true]
      · rw [← h5]
        simp only [searchNearest, hb, if_true]
    | false =>
      have hg := hG.1
      simp only [hb, if_false, Bool.false_eq_true] at hg
      obtain ⟨v, v', h1, h2, h3, h4, h5⟩ := key r l ihr' ihl' hsr hsl hg
      refine ⟨v, v', h1, h2, h3, ?_, ?_⟩
      · rw [← h4]
        simp only [searchNearest, hb, if_false, Bool.false_eq_true]
      · rw [← h5]
        simp only [searchNearest, hb, if_false, Bool.false_eq_true]

/-- A visitor that also writes down the points it is shown. -/
def recording (V : Visitor α σ) : Visitor α (σ × List Nat) where
  visit s i δ := (V.visit s.1 i δ, s.2 ++ [i])
  max s := V.max s.1

omit [LinearOrder α] [Zero α] [Add α] [Sub α] in
theorem visitAll_recording (V : Visitor α σ) (dist : Nat → α) (l : List Nat) (s : σ) (w : List Nat) :
    visitAll (recording V) dist l (s, w) = (visitAll V dist l s, w ++ l) := by
  induction l generalizing s w with
  | nil => simp [visitAll]
  | cons a l ih =>
    change visitAll (recording V) dist l (V.visit s a (dist a), w ++ [a]) = _
    rw [ih]
    simp [visitAll]

/-- The points that a search looks at, in order. -/
def KdTree.looked (T : KdTree α d β) (q : Pt α d) (V : Visitor α σ) (s : σ) : List Nat :=
  (T.searchNearest q (recording V) (s, [])).2

omit [Zero α] in
/-- Writing down does not change the traversal. -/
theorem searchNearest_recording (t : Tree β) (D : α) (off : Pt α d) (s : σ) (w : List Nat) :
    ∃ w', searchNearest splitDim pick (recording V) dist indices t D (off, (s, w)) =
      ((searchNearest splitDim pick V dist indices t D (off, s)).1,
        ((searchNearest splitDim pick V dist indices t D (off, s)).2, w')) := by
  induction t generalizing D off s w with
  | leaf b e =>
    rw [searchNearest, searchNearest, visitAll_recording]
    exact ⟨_, rfl⟩
  | branch data l r ihl ihr =>
    have hmax : ∀ x : σ × List Nat, (recording V).max x = V.max x.1 := fun _ => rfl
    simp only [searchNearest, hmax]
    cases (pick data).1 with
    | true =>
      simp only [if_true]
      obtain ⟨w1, h1⟩ := ihl D off s w
      rw [h1]
      dsimp only
      split_ifs with hc
      · obtain ⟨w2, h2⟩ := ihr (D - (searchNearest splitDim pick V dist indices l D (off, s)).1 (splitDim data) +
            (pick data).2)
          (Function.update (searchNearest splitDim pick V dist indices l D (off, s)).1 (splitDim data) (pick data).2)
          (searchNearest splitDim pick V dist indices l D (off, s)).2 w1
        rw [h2]
        exact ⟨w2, rfl⟩
      · exact ⟨w1, rfl⟩
    | false =>
      simp only [if_false, Bool.false_eq_true]
      obtain ⟨w1, h1⟩ := ihr D off s w
      rw [h1]
      dsimp only
      split_ifs with hc
      · obtain ⟨w2, h2⟩ := ihl (D - (searchNearest splitDim pick V dist indices r D (off, s)).1 (splitDim data) +
            (pick data).2)
          (Function.update (searchNearest splitDim pick V dist indices r D (off, s)).1 (splitDim data) (pick data).2)
          (searchNearest splitDim pick V dist indices r D (off, s)).2 w1
        rw [h2]
        exact ⟨w2, rfl⟩
      · exact ⟨w1, rfl⟩

omit splitDim pick V V' dist indices in
theorem KdTree.searchNearest_recording (T : KdTree α d β) (q : Pt α d) (V : Visitor α σ) (s : σ) :
    (T.searchNearest q (recording V) (s, [])).1 = T.searchNearest q V s := by
  obtain ⟨w, h⟩ := Pico.searchNearest_recording T.tag.splitDim (T.tag.pick T.metric q) V
    (fun i => T.metric.dist q (T.pts i)) T.data.indices T.data.root 0 (fun _ => 0) s []
  unfold KdTree.searchNearest searchNearestRoot
  rw [h]

end Pair

section Exact
variable {α : Type} [CommRing α] [LinearOrder α] [IsStrictOrderedRing α] {d : Nat} {β σ σ' : Type}

theorem GuardAt.looked {T : KdTree α d β} {q : Pt α d} {term : Fin d → Nat → α} (h : GuardAt T q term)
    {V : Visitor α σ} {V' : Visitor α σ'} {s : σ} {s' : σ'} {Inv : σ → Prop}
    (hV : Shrinks V (fun i => T.metric.dist q (T.pts i)) (· < T.n) Inv) (hI : Inv s)
    (hdom : Dominated V V' (fun i => T.metric.dist q (T.pts i)) (· < T.n) s s') :
    (T.looked q V s).Sublist (T.looked q V' s') := by
  have hlt : ∀ i ∈ T.data.root.elems T.data.indices, i < T.n := by
    intro i hi
    rw [h.elems] at hi
    exact List.mem_range.1 (h.perm.subset hi)
  have hmax : ∀ x : σ × List Nat, (recording V).max x = V.max x.1 := fun _ => rfl
  have hmax' : ∀ x : σ' × List Nat, (recording V').max x = V'.max x.1 := fun _ => rfl
  obtain ⟨v, v', h1, -, -, h4, h5⟩ := searchNearest_pair T.tag.splitDim (T.tag.pick T.metric q) (recording V)
    (recording V') (fun i => T.metric.dist q (T.pts i)) T.data.indices term
    (fun D off => D = ∑ k, off k) (fun D off j x h => sum_step D off j x h) (· < T.n)
    (fun D off i hi hD ho => by
      rw [hD, h.dist_eq i hi]
      exact Finset.sum_le_sum fun j _ => ho j)
    (fun x => Inv x.1) (fun x i hi hx => hV x.1 i hi hx) (s, []) (s', []) hI
    (fun w w' hw hah => by
      obtain ⟨skip, k1, k2⟩ := hah
      simp only [hmax, hmax', visitAll_recording] at k2 ⊢
      exact hdom w w' hw ⟨skip, k1, k2⟩)
    T.data.root 0 (fun _ => 0) hlt h.guard (by simp) (fun i hi j => h.nonneg i (hlt i hi) j) [] []
    (by simp) ⟨[], .refl _, by simp⟩
  have g : ∀ {τ : Type} (V : Visitor α τ) (s : τ) (v : List Nat),
      searchNearest T.tag.splitDim (T.tag.pick T.metric q) (recording V) (fun i => T.metric.dist q (T.pts i))
        T.data.indices T.data.root 0 (fun _ => 0, visitAll (recording V) (fun i => T.metric.dist q (T.pts i)) []
          (s, [])) =
        (fun _ => 0, visitAll (recording V) (fun i => T.metric.dist q (T.pts i)) ([] ++ v) (s, [])) →
      T.looked q V s = v := by
    intro τ V s v hv
    unfold KdTree.looked KdTree.searchNearest searchNearestRoot
    change (searchNearest T.tag.splitDim (T.tag.pick T.metric q) (recording V) (fun i => T.metric.dist q (T.pts i))
        T.data.indices T.data.root 0 (fun _ => 0, visitAll (recording V) (fun i => T.metric.dist q (T.pts i)) []
          (s, []))).2.2 = v
    rw [hv, visitAll_recording]
    rfl
  rw [g V s v h4, g V' s' v' h5]
  exact h1

end Exact

section Count
variable {α : Type} [LinearOrder α] {σ σ' : Type}

/-- `max()` of a visitor is the `k`-th smallest of the values `f` of the points it was shown. -/
def CountMax (V : Visitor α σ) (dist f : Nat → α) (A : Nat → Prop) (s : σ) (k : Nat) (big : α) : Prop :=
  ∀ w : List Nat, (∀ i ∈ w, A i) → V.max (visitAll V dist w s) ≤ big ∧
    ∀ a < big, V.max (visitAll V dist w s) ≤ a ↔ k ≤ w.countP fun i => decide (f i ≤ a)

theorem CountMax.dominated {V : Visitor α σ} {V' : Visitor α σ'} {dist f f' : Nat → α} {A : Nat → Prop} {s : σ}
    {s' : σ'} {k k' : Nat} {big : α} (h : CountMax V dist f A s k big) (h' : CountMax V' dist f' A s' k' big)
    (hk : k ≤ k') (hf : ∀ i, A i → f i ≤ f' i) (hd : ∀ i, A i → dist i ≤ f' i) : Dominated V V' dist A s s' := by
  rintro w w' hw ⟨skip, h1, h2⟩
  have hw1 : ∀ i ∈ w, A i := fun i hi => hw i (h1.subset (List.mem_append_left _ hi))
  have hw2 : ∀ i ∈ skip, A i := fun i hi => hw i (h1.subset (List.mem_append_right _ hi))
  obtain ⟨a1, a2⟩ := h w hw1
  obtain ⟨b1, b2⟩ := h' w' hw
  by_contra hc
  rw [not_le] at hc
  have hb := hc.trans_le a1
  have hcount := (b2 _ hb).1 le_rfl
  rw [← h1.countP_eq, List.countP_append] at hcount
  have hz : skip.countP (fun i => decide (f' i ≤ V'.max (visitAll V' dist w' s'))) = 0 := by
    rw [List.countP_eq_zero]
    intro i hi
    rw [decide_eq_true_eq, not_le]
    exact (hc.trans (h2 i hi)).trans_le (hd i (hw2 i hi))
  have hmono : w.countP (fun i => decide (f' i ≤ V'.max (visitAll V' dist w' s'))) ≤
      w.countP (fun i => decide (f i ≤ V'.max (visitAll V' dist w' s'))) :=
    List.countP_mono_left fun i hi hle => decide_eq_true ((hf i (hw1 i hi)).trans (of_decide_eq_true hle))
  exact absurd ((a2 _ hb).2 (by omega)) (not_le.2 hc)

theorem countMax_nn (N : Num α) (dist : Nat → α) (nn : Neighbor α) (A : Nat → Prop) :
    CountMax nnVisitor dist dist A (nnInit N nn) 1 N.big := by
  intro w _
  change (visitAll nnVisitor dist w (nnInit N nn)).distance ≤ _ ∧ ∀ a < N.big,
    (visitAll nnVisitor dist w (nnInit N nn)).distance ≤ a ↔ _
  rcases nn_visitAll dist w (nnInit N nn) with ⟨h1, h2⟩ | ⟨i, hi, h1, h2, h3⟩
  · rw [h1]
    refine ⟨le_rfl, fun a ha => ⟨fun h => absurd h (not_le.2 ha), fun h => ?_⟩⟩
    obtain ⟨i, hi, hle⟩ := List.countP_pos_iff.1 (Nat.lt_of_lt_of_le Nat.zero_lt_one h)
    exact absurd ((h2 i hi).trans (of_decide_eq_true hle)) (not_le.2 ha)
  · rw [h1]
    refine ⟨?_, fun a ha => ⟨fun h => ?_, fun h => ?_⟩⟩
    · exact h2.le
    · exact List.countP_pos_iff.2 ⟨i, hi, decide_eq_true h⟩
    · obtain ⟨j, hj, hle⟩ := List.countP_pos_iff.1 (Nat.lt_of_lt_of_le Nat.zero_lt_one h)
      exact (h3 j hj).trans (of_decide_eq_true hle)

theorem countMax_knn (N : Num α) (dist : Nat → α) {buf : List (Neighbor α)} (hb : 0 < buf.length) {s : KnnState α}
    (hs : knnInit N buf = .ok s) : CountMax (knnVisitor N) dist dist (fun i => dist i < N.big) s buf.length N.big := by
  obtain ⟨init, hi, hlen, hlast, -, -, hinv⟩ := knnInit_inv N buf hb
  rw [hi] at hs
  cases hs
  intro w hw
  obtain ⟨L, R, hL⟩ := knn_visitAll N dist init hlast w hw hinv
  rw [List.nil_append] at hL
  change knnMax N (visitAll (knnVisitor N) dist w ⟨init, 0⟩) ≤ _ ∧ ∀ a < N.big,
    knnMax N (visitAll (knnVisitor N) dist w ⟨init, 0⟩) ≤ a ↔ _
  have hcount : ∀ a, w.countP (fun i => decide (dist i ≤ a)) =
      L.countP (fun x => decide (x.distance ≤ a)) + R.countP (fun x => decide (x.distance ≤ a)) := by
    intro a
    rw [← List.countP_append, hL.perm.countP_eq, List.countP_map]
    rfl
  rw [← hlen]
  by_cases hfull : L.length < init.length
  · rw [knnMax_not_full hL hlast hfull]
    refine ⟨le_rfl, fun a ha => ⟨fun h => absurd h (not_le.2 ha), fun h => ?_⟩⟩
    have hR : R = [] := by
      by_contra hc; exact absurd (hL.full hc) hfull.ne
    rw [hcount, hR, List.countP_nil] at h
    have := List.countP_le_length (p := fun x : Neighbor α => decide (x.distance ≤ a)) (l := L)
    omega
  · have hfull' : L.length = init.length := le_antisymm hL.le (not_lt.1 hfull)
    obtain ⟨L0, z, hz, hmax⟩ := knnMax_full hL hfull' (by omega)
    rw [hmax]
    have hsorted := hL.sorted
    rw [hz, List.pairwise_append] at hsorted
    have hlez : ∀ a ∈ L, a.distance ≤ z.distance := by
      intro a ha
      rw [hz] at ha
      rcases List.mem_append.1 ha with ha | ha
      · exact hsorted.2.2 a ha z (by simp)
      · simp only [List.mem_singleton] at ha; rw [ha]
    have hzL : z ∈ L := by rw [hz]; simp
    refine ⟨(hL.small z hzL).le, fun a ha => ⟨fun h => ?_, fun h => ?_⟩⟩
    · rw [hcount, List.countP_eq_length.2 fun x hx => decide_eq_true ((hlez x hx).trans h)]
      omega
    · by_contra hc
      rw [not_le] at hc
      have hR : R.countP (fun x => decide (x.distance ≤ a)) = 0 := by
        rw [List.countP_eq_zero]
        intro x hx
        rw [decide_eq_true_eq, not_le]
        exact hc.trans_le (hL.rejected z hzL x hx)
      have hLc : L.countP (fun x => decide (x.distance ≤ a)) ≤ L0.length := by
        rw [hz, List.countP_append, List.countP_singleton, if_neg (by simpa using hc)]
        exact List.countP_le_length
      have hlen0 : L.length = L0.length + 1 := by rw [hz]; simp
      rw [hcount, hR] at h
      omega

end Count

end Pico
