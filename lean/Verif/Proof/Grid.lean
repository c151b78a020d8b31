import Verif.Proof.Rounding
import Verif.Proof.Shape
import Verif.SpecTree
import Mathlib.Algebra.Group.Subgroup.Defs
import Mathlib.Algebra.Group.Subgroup.Lattice
import Mathlib.Algebra.BigOperators.Group.Finset.Basic
import Mathlib.Algebra.Group.Submonoid.BigOperators
import Mathlib.Algebra.Group.Subgroup.Finite

/-!
# Arithmetic that is exact on a grid

Sums of non-negative grid values below some limit are computed exactly: integers of bounded size in floating
point arithmetic, and machine integers below overflow.  Then the running distance of the traversal is
exactly the sum of the offsets, as every offset is the distance to a coordinate of a point.
-/

set_option linter.unusedSectionVars false

namespace Pico

section Traversal
variable {α : Type} [LinearOrder α] [Zero α] [Add α] [Sub α] {d : Nat} {β σ : Type}
variable (splitDim : β → Fin d) (pick : β → Bool × α) (V : Visitor α σ) (dist : Nat → α)
  (indices : List Nat)

/-- `Q data i` holds at every branch for the points `i` of the child visited second. -/
def GuardBy (Q : β → Nat → Prop) : Tree β → Prop
  | .leaf _ _ => True
  | .branch data l r =>
    (∀ i ∈ (if (pick data).1 then r else l).elems indices, Q data i) ∧ GuardBy Q l ∧ GuardBy Q r

/-- The traversal with an invariant `P D off i` of running distance, offsets and every single point: a point that is
skipped belongs to a subtree whose running distance exceeds `max()`. -/
theorem searchNearest_skip (Q : β → Nat → Prop) (P : α → Pt α d → Nat → Prop) (A : Nat → Prop)
    (hstep : ∀ D off i data, A i → Q data i → P D off i →
      P (D - off (splitDim data) + (pick data).2)
        (Function.update off (splitDim data) (pick data).2) i)
    (Inv : σ → Prop) (hV : Shrinks V dist A Inv)
    (t : Tree β) (D : α) (st : Pt α d × σ) (hA : ∀ i ∈ t.elems indices, A i)
    (hG : GuardBy pick indices Q t) (hP : ∀ i ∈ t.elems indices, P D st.1 i) (hI : Inv st.2) :
    ∃ vis skip, (vis ++ skip).Perm (t.elems indices) ∧
      searchNearest splitDim pick V dist indices t D st = (st.1, visitAll V dist vis st.2) ∧
      ∀ i ∈ skip, ∃ D off, P D off i ∧ V.max (visitAll V dist vis st.2) < D := by
  induction t generalizing D st with
  | leaf b e =>
    exact ⟨slice indices b e, [], by simp [Tree.elems], by simp [searchNearest], by simp⟩
  | branch data l r ihl ihr =>
    have key : ∀ (t1 t2 : Tree β),
        (∀ (D : α) (st : Pt α d × σ), (∀ i ∈ t1.elems indices, P D st.1 i) →
          Inv st.2 → ∃ vis skip, (vis ++ skip).Perm (t1.elems indices) ∧
          searchNearest splitDim pick V dist indices t1 D st = (st.1, visitAll V dist vis st.2) ∧
          ∀ i ∈ skip, ∃ D off, P D off i ∧ V.max (visitAll V dist vis st.2) < D) →
        (∀ (D : α) (st : Pt α d × σ), (∀ i ∈ t2.elems indices, P D st.1 i) →
          Inv st.2 → ∃ vis skip, (vis ++ skip).Perm (t2.elems indices) ∧
          searchNearest splitDim pick V dist indices t2 D st = (st.1, visitAll V dist vis st.2) ∧
          ∀ i ∈ skip, ∃ D off, P D off i ∧ V.max (visitAll V dist vis st.2) < D) →
        (∀ i ∈ t1.elems indices, i ∈ (Tree.branch data l r).elems indices) →
        (∀ i ∈ t2.elems indices, i ∈ (Tree.branch data l r).elems indices) →
        (∀ i ∈ t2.elems indices, Q data i) →
        ∃ vis skip, (vis ++ skip).Perm (t1.elems indices ++ t2.elems indices) ∧
          (let st1 := searchNearest splitDim pick V dist indices t1 D st
           let oldOffset := st1.1 (splitDim data)
           let D' := D - oldOffset + (pick data).2
           if V.max st1.2 ≥ D' then
            let st' := (Function.update st1.1 (splitDim data) (pick data).2, st1.2)
            let st2 := searchNearest splitDim pick V dist indices t2 D' st'
            (Function.update st2.1 (splitDim data) oldOffset, st2.2)
           else st1) = (st.1, visitAll V dist vis st.2) ∧
          ∀ i ∈ skip, ∃ D off, P D off i ∧ V.max (visitAll V dist vis st.2) < D := by
      intro t1 t2 h1 h2 hs1 hs2 hg
      obtain ⟨v1, s1, hp1, he1, hk1⟩ := h1 D st (fun i hi => hP i (hs1 i hi)) hI
      have hv1 : ∀ i ∈ v1, A i := fun i hi =>
        hA i (hs1 i (hp1.subset (List.mem_append_left _ hi)))
      have hI1 := (hV.visitAll v1 hv1 st.2 hI).1
      dsimp only
      rw [he1]
      dsimp only
      have hP' : ∀ i ∈ t2.elems indices, P (D - st.1 (splitDim data) + (pick data).2)
          (Function.update st.1 (splitDim data) (pick data).2) i := fun i hi =>
        hstep D st.1 i data (hA i (hs2 i hi)) (hg i hi) (hP i (hs2 i hi))
      split_ifs with hc
      · obtain ⟨v2, s2, hp2, he2, hk2⟩ := h2 (D - st.1 (splitDim data) + (pick data).2)
          (Function.update st.1 (splitDim data) (pick data).2, visitAll V dist v1 st.2)
          hP' hI1
        have hv2 : ∀ i ∈ v2, A i := fun i hi =>
          hA i (hs2 i (hp2.subset (List.mem_append_left _ hi)))
        refine ⟨v1 ++ v2, s1 ++ s2, ?_, ?_, ?_⟩
        · have := hp1.append hp2
          refine List.Perm.trans ?_ this
          simp only [List.append_assoc]
          refine List.Perm.append_left _ ?_
          rw [← List.append_assoc, ← List.append_assoc]
          exact List.Perm.append_right _ List.perm_append_comm
        · rw [he2]
          simp [visitAll_append]
        · intro i hi
          rw [visitAll_append]
          rcases List.mem_append.1 hi with hi | hi
          · obtain ⟨D1, off1, g1, g2⟩ := hk1 i hi
            exact ⟨D1, off1, g1, lt_of_le_of_lt (hV.visitAll v2 hv2 _ hI1).2 g2⟩
          · exact hk2 i hi
      · refine ⟨v1, s1 ++ t2.elems indices, ?_, rfl, ?_⟩
        · rw [← List.append_assoc]
          exact hp1.append_right _
        · intro i hi
          rcases List.mem_append.1 hi with hi | hi
          · exact hk1 i hi
          · exact ⟨_, _, hP' i hi, not_le.1 hc⟩
    have hsl : ∀ i ∈ l.elems indices, i ∈ (Tree.branch data l r).elems indices :=
      fun i hi => List.mem_append_left _ hi
    have hsr : ∀ i ∈ r.elems indices, i ∈ (Tree.branch data l r).elems indices :=
      fun i hi => List.mem_append_right _ hi
    have ihl' := fun D st hP hI => ihl D st (fun i hi => hA i (hsl i hi)) hG.2.1 hP hI
    have ihr' := fun D st hP hI => ihr D st (fun i hi => hA i (hsr i hi)) hG.2.2 hP hI
    cases hb : (pick data).1 with
    | true =>
      have hg := hG.1
      simp only [hb, if_true] at hg
      obtain ⟨vis, skip, hp, he, hk⟩ := key l r ihl' ihr' hsl hsr hg
      refine ⟨vis, skip, hp, ?_, hk⟩
      rw [← he]
      simp only [searchNearest, hb, if_true]
    | false =>
      have hg := hG.1
      simp only [hb, if_false, Bool.false_eq_true] at hg
      obtain ⟨vis, skip, hp, he, hk⟩ := key r l ihr' ihl' hsr hsl hg
      refine ⟨vis, skip, hp.trans List.perm_append_comm, ?_, hk⟩
      rw [← he]
      simp only [searchNearest, hb, if_false, Bool.false_eq_true]

/-- The same with a lower bound `low` of the running distance. -/
theorem searchNearest_points (Q : β → Nat → Prop) (P : α → Pt α d → Nat → Prop) (A : Nat → Prop)
    (low : Nat → α)
    (hstep : ∀ D off i data, A i → Q data i → P D off i →
      P (D - off (splitDim data) + (pick data).2)
        (Function.update off (splitDim data) (pick data).2) i)
    (hlower : ∀ D off i, A i → P D off i → D ≤ low i)
    (Inv : σ → Prop) (hV : Shrinks V dist A Inv)
    (t : Tree β) (D : α) (st : Pt α d × σ) (hA : ∀ i ∈ t.elems indices, A i)
    (hG : GuardBy pick indices Q t) (hP : ∀ i ∈ t.elems indices, P D st.1 i) (hI : Inv st.2) :
    ∃ vis skip, (vis ++ skip).Perm (t.elems indices) ∧
      searchNearest splitDim pick V dist indices t D st = (st.1, visitAll V dist vis st.2) ∧
      ∀ i ∈ skip, V.max (visitAll V dist vis st.2) < low i := by
  obtain ⟨vis, skip, hp, he, hk⟩ := searchNearest_skip splitDim pick V dist indices Q P A hstep Inv hV t D st hA
    hG hP hI
  refine ⟨vis, skip, hp, he, fun i hi => ?_⟩
  obtain ⟨D', off', h1, h2⟩ := hk i hi
  exact lt_of_lt_of_le h2 (hlower D' off' i (hA i (hp.subset (List.mem_append_right _ hi))) h1)

end Traversal

section Coordinates
variable {α : Type} [LinearOrder α] [Add α] [Sub α] {d : Nat} {β : Type}

/-- Both corners of a box are made of coordinates of the points of `seg` (or of the initial values). -/
def Corners (N : Num α) (pts : Nat → Pt α d) (seg : List Nat) (box : Box α d) : Prop :=
  ∀ j, (box.min j = N.big ∨ ∃ i ∈ seg, box.min j = pts i j) ∧
    (box.max j = N.low ∨ ∃ i ∈ seg, box.max j = pts i j)

theorem corners_foldl (N : Num α) (pts : Nat → Pt α d) (all seg : List Nat) (box : Box α d)
    (hs : ∀ i ∈ seg, i ∈ all) (h : Corners N pts all box) :
    Corners N pts all (seg.foldl (fun b i => b.fitPt (pts i)) box) := by
  induction seg generalizing box with
  | nil => exact h
  | cons a seg ih =>
    refine ih _ (fun i hi => hs i (List.mem_cons_of_mem _ hi)) ?_
    intro j
    have ha := hs a (by simp)
    constructor
    · simp only [Box.fitPt]
      split_ifs
      · exact .inr ⟨a, ha, rfl⟩
      · exact (h j).1
    · simp only [Box.fitPt]
      split_ifs
      · exact .inr ⟨a, ha, rfl⟩
      · exact (h j).2

theorem Corners.mono {N : Num α} {pts : Nat → Pt α d} {seg all : List Nat} {box : Box α d}
    (h : Corners N pts seg box) (hs : ∀ i ∈ seg, i ∈ all) : Corners N pts all box := by
  intro j
  refine ⟨(h j).1.imp_right ?_, (h j).2.imp_right ?_⟩ <;>
  · rintro ⟨i, hi, e⟩
    exact ⟨i, hs i hi, e⟩

theorem Corners.fitBox {N : Num α} {pts : Nat → Pt α d} {seg : List Nat} {a b : Box α d}
    (ha : Corners N pts seg a) (hb : Corners N pts seg b) : Corners N pts seg (a.fitBox b) := by
  intro j
  constructor
  · simp only [Box.fitBox]
    split_ifs
    · exact (hb j).1
    · exact (ha j).1
  · simp only [Box.fitBox]
    split_ifs
    · exact (hb j).2
    · exact (ha j).2

variable {C : BuildCfg α d β}

/-- Median and sliding midpoint rule: the boxes of the nodes are made of coordinates of their points. -/
theorem Created.corners (hr : C.rule ≠ .midpoint) {depth : Int} {o : Nat} {seg : List Nat} {box : Box α d}
    {t : Tree β} {seg' : List Nat} {box' : Box α d} (h : Created C depth o seg box t seg' box') :
    Corners C.N C.pts seg' box' := by
  induction h with
  | @leaf depth o seg box hl =>
    have e : leafBox C seg box = computeBoundingBox C.N C.pts seg := by
      unfold leafBox
      split
      · rename_i hr'; exact absurd hr' hr
      · rfl
    rw [e]
    refine corners_foldl C.N C.pts seg seg _ (fun _ h => h) ?_
    intro j
    exact ⟨.inl rfl, .inl rfl⟩
  | branch hl hs _ _ ih1 ih2 =>
    exact (ih1.mono fun i hi => List.mem_append_left _ hi).fitBox
      (ih2.mono fun i hi => List.mem_append_right _ hi)

end Coordinates

section Guards
variable {α : Type} [LinearOrder α] [Zero α] [Add α] [Sub α] {d : Nat}

/-- The second child is entered with the distance to a coordinate of a point. -/
theorem Created.guardCoord {C : BuildCfg α d (Branch1 α d)} (hset : C.setBranch = setBranchEuclidean)
    (hN : C.N.low ≤ C.N.big) (hr : C.rule ≠ .midpoint) (M : Metric α d) (q : Pt α d) {depth : Int} {o : Nat}
    {seg : List Nat} {box : Box α d} {t : Tree (Branch1 α d)} {seg' : List Nat} {box' : Box α d}
    (h : Created C depth o seg box t seg' box') {n : Nat} (hlt : ∀ i ∈ seg, i < n)
    (hp : ∀ i < n, ∀ j, InRange C.N (C.pts i j)) (pre post : List Nat) (ho : o = pre.length) :
    GuardBy ((euclideanTag α d).pick M q) (pre ++ (seg' ++ post))
      (fun data _ => ∃ k < n, ((euclideanTag α d).pick M q data).2 =
        M.one (C.pts k data.splitDim - q data.splitDim)) t := by
  induction h generalizing pre post with
  | leaf _ => trivial
  | @branch depth o seg box sp l r segL segR boxL boxR hl hs hL hR ih1 ih2 =>
    have hmem := splitter_mem hs
    have hltL : ∀ i ∈ sp.seg.take sp.pos, i < n := fun i hi => hlt i (hmem.1 i hi)
    have hltR : ∀ i ∈ sp.seg.drop sp.pos, i < n := fun i hi => hlt i (hmem.2 i hi)
    have hlen : segL.length = sp.pos := by rw [hL.perm.length_eq]; exact splitter_take_length hs
    have bL := hL.built hN (fun h => absurd h hr) (fun i hi => hp i (hltL i hi)) (fun h => absurd h hr)
    have bR := hR.built hN (fun h => absurd h hr) (fun i hi => hp i (hltR i hi)) (fun h => absurd h hr)
    have hel := bL.elems_eq pre (segR ++ post) ho
    have her := bR.elems_eq (pre ++ segL) post (by simp [ho, hlen])
    have g1 := ih1 hltL pre (segR ++ post) ho
    have g2 := ih2 hltR (pre ++ segL) post (by simp [ho, hlen])
    simp only [List.append_assoc] at hel her g1 g2 ⊢
    refine ⟨?_, g1, g2⟩
    intro i hi
    rw [hset] at hi ⊢
    simp only [euclideanTag, pickEuclidean, setBranchEuclidean] at hi ⊢
    by_cases hc : boxL.max sp.dim + boxR.min sp.dim - q sp.dim - q sp.dim > 0
    · simp only [if_pos hc, if_true] at hi ⊢
      rw [her] at hi
      have hin := hltR i (hR.perm.subset hi)
      rcases (hR.corners hr sp.dim).1 with e | ⟨k, hk, e⟩
      · refine ⟨i, hin, ?_⟩
        have h1 := (bR.mem i hi sp.dim).1
        rw [le_antisymm (by rw [e]; exact (hp i hin sp.dim).2) h1]
      · exact ⟨k, hltR k (hR.perm.subset hk), by rw [e]⟩
    · simp only [if_neg hc, Bool.false_eq_true, if_false] at hi ⊢
      rw [hel] at hi
      have hin := hltL i (hL.perm.subset hi)
      rcases (hL.corners hr sp.dim).2 with e | ⟨k, hk, e⟩
      · refine ⟨i, hin, ?_⟩
        have h1 := (bL.mem i hi sp.dim).2
        rw [le_antisymm h1 (by rw [e]; exact (hp i hin sp.dim).1)]
      · exact ⟨k, hltL k (hL.perm.subset hk), by rw [e]⟩

/-- The corners of a box that contains a point are coordinates. -/
theorem Corners.exists {N : Num α} {pts : Nat → Pt α d} {seg : List Nat} {box : Box α d}
    (h : Corners N pts seg box) (hp : ∀ i ∈ seg, ∀ j, InRange N (pts i j)) (hm : ∀ i ∈ seg, box.Mem (pts i))
    (hne : seg ≠ []) (j : Fin d) :
    (∃ k ∈ seg, box.min j = pts k j) ∧ ∃ k ∈ seg, box.max j = pts k j := by
  obtain ⟨i, hi⟩ := List.exists_mem_of_ne_nil seg hne
  constructor
  · rcases (h j).1 with e | e
    · exact ⟨i, hi, le_antisymm (hm i hi j).1 (by rw [e]; exact (hp i hi j).2)⟩
    · exact e
  · rcases (h j).2 with e | e
    · exact ⟨i, hi, le_antisymm (by rw [e]; exact (hp i hi j).1) (hm i hi j).2⟩
    · exact e

/-- The guard for an arithmetic that decides correctly on which side of two coordinates the query lies, and
whose distances along an axis are monotone. -/
theorem Created.guardExact {C : BuildCfg α d (Branch1 α d)} (hset : C.setBranch = setBranchEuclidean)
    (hN : C.N.low ≤ C.N.big) (hr : C.rule ≠ .midpoint) (hst : StopOk C) (M : Metric α d) (q : Pt α d)
    {depth : Int} {o : Nat}
    {seg : List Nat} {box : Box α d} {t : Tree (Branch1 α d)} {seg' : List Nat} {box' : Box α d}
    (h : Created C depth o seg box t seg' box') {n : Nat} (hlt : ∀ i ∈ seg, i < n)
    (hp : ∀ i < n, ∀ j, InRange C.N (C.pts i j))
    (hsgn : ∀ a < n, ∀ b < n, ∀ j, C.pts a j ≤ C.pts b j →
      (C.pts a j + C.pts b j - q j - q j > 0 → q j ≤ C.pts b j) ∧
      (¬ C.pts a j + C.pts b j - q j - q j > 0 → C.pts a j ≤ q j))
    (hmono : ∀ k < n, ∀ i < n, ∀ j, (q j ≤ C.pts k j ∧ C.pts k j ≤ C.pts i j) ∨
      (C.pts k j ≤ q j ∧ C.pts i j ≤ C.pts k j) →
      M.one (C.pts k j - q j) ≤ M.one (q j - C.pts i j))
    (pre post : List Nat) (ho : o = pre.length) :
    Guard (euclideanTag α d).splitDim ((euclideanTag α d).pick M q) (pre ++ (seg' ++ post))
      (fun j i => M.one (q j - C.pts i j)) t := by
  induction h generalizing pre post with
  | leaf _ => trivial
  | @branch depth o seg box sp l r segL segR boxL boxR hl hs hL hR ih1 ih2 =>
    have hmem := splitter_mem hs
    have hltL : ∀ i ∈ sp.seg.take sp.pos, i < n := fun i hi => hlt i (hmem.1 i hi)
    have hltR : ∀ i ∈ sp.seg.drop sp.pos, i < n := fun i hi => hlt i (hmem.2 i hi)
    have hlen : segL.length = sp.pos := by rw [hL.perm.length_eq]; exact splitter_take_length hs
    have bL := hL.built hN (fun h => absurd h hr) (fun i hi => hp i (hltL i hi)) (fun h => absurd h hr)
    have bR := hR.built hN (fun h => absurd h hr) (fun i hi => hp i (hltR i hi)) (fun h => absurd h hr)
    have hel := bL.elems_eq pre (segR ++ post) ho
    have her := bR.elems_eq (pre ++ segL) post (by simp [ho, hlen])
    have g1 := ih1 hltL pre (segR ++ post) ho
    have g2 := ih2 hltR (pre ++ segL) post (by simp [ho, hlen])
    have hpos := split_pos hr hs (two_le_of_not_leaf hst hl)
    have hneL : segL ≠ [] := by
      intro e; rw [e] at hlen; simp at hlen; omega
    have hneR : segR ≠ [] := by
      intro e
      have := hR.perm.length_eq
      rw [splitter_drop_length hs, e] at this
      simp at this
      omega
    have hL' : ∀ i ∈ segL, i < n := fun i hi => hltL i (hL.perm.subset hi)
    have hR' : ∀ i ∈ segR, i < n := fun i hi => hltR i (hR.perm.subset hi)
    obtain ⟨a, ha, ea⟩ := ((hL.corners hr).exists (fun i hi => hp i (hL' i hi)) bL.mem hneL sp.dim).2
    obtain ⟨b, hb, eb⟩ := ((hR.corners hr).exists (fun i hi => hp i (hR' i hi)) bR.mem hneR sp.dim).1
    have hab : C.pts a sp.dim ≤ C.pts b sp.dim :=
      ((splitter_ok hs).1.left_le a (hL.perm.subset ha)).trans
        ((splitter_ok hs).1.right_ge b (hR.perm.subset hb))
    have hsg := hsgn a (hL' a ha) b (hR' b hb) sp.dim hab
    simp only [List.append_assoc] at hel her g1 g2 ⊢
    refine ⟨?_, g1, g2⟩
    intro i hi
    rw [hset] at hi ⊢
    simp only [euclideanTag, pickEuclidean, setBranchEuclidean] at hi ⊢
    rw [ea, eb] at hi ⊢
    by_cases hc : C.pts a sp.dim + C.pts b sp.dim - q sp.dim - q sp.dim > 0
    · simp only [if_pos hc, if_true] at hi ⊢
      rw [her] at hi
      exact hmono b (hR' b hb) i (hR' i hi) sp.dim
        (.inl ⟨hsg.1 hc, by rw [← eb]; exact (bR.mem i hi sp.dim).1⟩)
    · simp only [if_neg hc, Bool.false_eq_true, if_false] at hi ⊢
      rw [hel] at hi
      exact hmono a (hL' a ha) i (hL' i hi) sp.dim
        (.inr ⟨hsg.2 hc, by rw [← ea]; exact (bL.mem i hi sp.dim).2⟩)

theorem GuardBy.and {β : Type} {pick : β → Bool × α} {indices : List Nat} {Q Q' : β → Nat → Prop} {t : Tree β}
    (h : GuardBy pick indices Q t) (h' : GuardBy pick indices Q' t) :
    GuardBy pick indices (fun b i => Q b i ∧ Q' b i) t := by
  induction t with
  | leaf => trivial
  | branch data l r ihl ihr =>
    exact ⟨fun i hi => ⟨h.1 i hi, h'.1 i hi⟩, ihl h.2.1 h'.2.1, ihr h.2.2 h'.2.2⟩

theorem GuardBy.mono {β : Type} {pick : β → Bool × α} {indices : List Nat} {Q Q' : β → Nat → Prop} {t : Tree β}
    (h : GuardBy pick indices Q t) (hQ : ∀ b i, Q b i → Q' b i) : GuardBy pick indices Q' t := by
  induction t with
  | leaf => trivial
  | branch data l r ihl ihr => exact ⟨fun i hi => hQ _ _ (h.1 i hi), ihl h.2.1, ihr h.2.2⟩

theorem Guard.by {β : Type} {splitDim : β → Fin d} {pick : β → Bool × α} {indices : List Nat}
    {term : Fin d → Nat → α} {t : Tree β} (h : Guard splitDim pick indices term t) :
    GuardBy pick indices (fun b i => (pick b).2 ≤ term (splitDim b) i) t := by
  induction t with
  | leaf => trivial
  | branch data l r ihl ihr => exact ⟨h.1, ihl h.2.1, ihr h.2.2⟩

end Guards

section Exact
variable {α : Type} [LinearOrder α] [Zero α] [Add α] [Sub α] {d : Nat}
  {K : Type} [CommRing K] [LinearOrder K] [IsStrictOrderedRing K]

/-- Sums and differences of non-negative values of the grid `G` are exact up to the limit `lim`. -/
structure ExactSums (val : α → K) (G : AddSubgroup K) (lim : K) : Prop where
  le_iff : ∀ a b, a ≤ b ↔ val a ≤ val b
  zero : val 0 = 0
  add : ∀ a b, val a ∈ G → val b ∈ G → 0 ≤ val a → 0 ≤ val b → val a + val b ≤ lim →
    val (a + b) = val a + val b
  sub : ∀ a b, val a ∈ G → val b ∈ G → 0 ≤ val b → val b ≤ val a → val a ≤ lim →
    val (a - b) = val a - val b

variable {val : α → K} {G : AddSubgroup K} {lim : K}

theorem ExactSums.loopSum (E : ExactSums val G lim) (f : Fin d → α) (hG : ∀ j, val (f j) ∈ G)
    (h0 : ∀ j, 0 ≤ val (f j)) (hl : ∑ j, val (f j) ≤ lim) : val (loopSum f) = ∑ j, val (f j) := by
  have key : ∀ (l : List (Fin d)) (acc : α), val acc ∈ G → 0 ≤ val acc →
      val acc + (l.map fun j => val (f j)).sum ≤ lim →
      val (l.foldl (fun acc j => acc + f j) acc) = val acc + (l.map fun j => val (f j)).sum := by
    intro l
    induction l with
    | nil => intro acc _ _ _; simp
    | cons a l ih =>
      intro acc hg hacc hb
      rw [List.map_cons, List.sum_cons] at hb
      have hs : 0 ≤ (l.map fun j => val (f j)).sum := by
        apply List.sum_nonneg
        intro x hx
        obtain ⟨j, _, rfl⟩ := List.mem_map.1 hx
        exact h0 j
      have e := E.add acc (f a) hg (hG a) hacc (h0 a) (by linarith)
      rw [List.foldl_cons, ih (acc + f a) (by rw [e]; exact G.add_mem hg (hG a))
        (by rw [e]; exact add_nonneg hacc (h0 a)) (by rw [e]; linarith), e, List.map_cons, List.sum_cons]
      ring
  have := key (List.finRange d) 0 (by rw [E.zero]; exact G.zero_mem) (by rw [E.zero])
  rw [E.zero, zero_add, ← List.ofFn_eq_map, List.sum_ofFn] at this
  exact this hl

/-- The traversal is exact as far as the points that satisfy `Near` are concerned: they are presented or farther away
than the final `max()`. -/
def NearAt {β : Type} (T : KdTree α d β) (q : Pt α d) (Near : Nat → Prop) : Prop :=
  ∀ (σ : Type) (V : Visitor α σ) (Inv : σ → Prop) (s : σ),
    Shrinks V (fun i => T.metric.dist q (T.pts i)) (· < T.n) Inv → Inv s →
    ∃ vis skip, (vis ++ skip).Perm (List.range T.n) ∧
      T.searchNearest q V s = visitAll V (fun i => T.metric.dist q (T.pts i)) vis s ∧
      ∀ i ∈ skip, Near i → V.max (T.searchNearest q V s) < T.metric.dist q (T.pts i)

/-- Searches are exact for the points whose sums of distances are. -/
theorem nearAt_sums (E : ExactSums val G lim) {β : Type} {tag : SpaceTag α d β} {M : Metric α d} {N : Num α}
    {pts : Nat → Pt α d} {n : Nat} {o : BuildOpts α d} {fuel : Nat} {T : KdTree α d β}
    (h : KdTree.make tag M N pts n o fuel = .ok T) (hR : Representable N pts n o)
    (hn : 0 < n) (q : Pt α d) (term : Fin d → Nat → α) (Near : Nat → Prop)
    (hval : ∀ i < n, Near i → val (M.dist q (pts i)) = ∑ j, val (term j i))
    (hG : ∀ i < n, ∀ j, val (term j i) ≤ lim → val (term j i) ∈ G)
    (h0 : ∀ i < n, ∀ j, 0 ≤ val (term j i))
    (hlim : ∀ i < n, Near i → ∑ j, val (term j i) ≤ lim)
    (hguard : Guard tag.splitDim (tag.pick M q) T.data.indices term T.data.root)
    (hcoord : GuardBy (tag.pick M q) T.data.indices (fun data _ => (tag.pick M q data).2 = 0 ∨
      ∃ k < n, (tag.pick M q data).2 = term (tag.splitDim data) k) T.data.root) :
    NearAt T q Near := by
  obtain ⟨hperm, _, _, hel⟩ := KdTree.make_built h hR hn
  obtain ⟨h1, h2, h3, h4, h5, hb⟩ := KdTree.make_ok h
  have hg := hguard.by.and hcoord
  have hlt : ∀ i ∈ T.data.root.elems T.data.indices, i < n := by
    intro i hi
    rw [hel] at hi
    exact List.mem_range.1 (hperm.subset hi)
  intro σ V Inv s hV hI
  rw [h2, h4, h5] at hV
  obtain ⟨vis, skip, hp, he, hk⟩ := searchNearest_skip T.tag.splitDim (T.tag.pick T.metric q) V
    (fun i => T.metric.dist q (T.pts i)) T.data.indices
    (fun data i => (tag.pick M q data).2 ≤ term (tag.splitDim data) i ∧
      ((tag.pick M q data).2 = 0 ∨ ∃ k < n, (tag.pick M q data).2 = term (tag.splitDim data) k))
    (fun D off i => Near i → (∀ j, val (off j) ∈ G ∧ 0 ≤ val (off j) ∧ val (off j) ≤ val (term j i)) ∧
      val D = ∑ j, val (off j))
    (· < n)
    (by
      rintro D off i data hi ⟨hq, hk⟩ hP near
      obtain ⟨a1, a2⟩ := hP near
      have hlim := hlim i hi near
      rw [h1, h2]
      set j0 := tag.splitDim data with hj0
      set x := (tag.pick M q data).2 with hx
      have x3 : val x ≤ val (term j0 i) := (E.le_iff _ _).1 hq
      have x4 : val (term j0 i) ≤ lim :=
        (Finset.single_le_sum (fun j _ => h0 i hi j) (Finset.mem_univ j0)).trans hlim
      obtain ⟨x1, x2⟩ : val x ∈ G ∧ 0 ≤ val x := by
        rcases hk with hk | ⟨k, hkn, hk⟩
        · rw [hk, E.zero]; exact ⟨G.zero_mem, le_rfl⟩
        · have x5 := x3.trans x4
          rw [hk] at x5 ⊢
          exact ⟨hG k hkn j0 x5, h0 k hkn j0⟩
      have b1 : ∀ j, val (Function.update off j0 x j) ∈ G ∧ 0 ≤ val (Function.update off j0 x j) ∧
          val (Function.update off j0 x j) ≤ val (term j i) := by
        intro j
        by_cases hj : j = j0
        · subst hj; rw [Function.update_self]; exact ⟨x1, x2, x3⟩
        · rw [Function.update_of_ne hj]; exact a1 j
      refine ⟨b1, ?_⟩
      have hsum : ∑ j, val (Function.update off j0 x j) = ∑ j, val (off j) - val (off j0) + val x := by
        have e : ∀ j, val (Function.update off j0 x j) = Function.update (fun j => val (off j)) j0 (val x) j := by
          intro j
          by_cases hj : j = j0
          · subst hj; simp
          · simp [Function.update, hj]
        simp only [e]
        rw [Finset.sum_update_of_mem (Finset.mem_univ j0),
          ← Finset.add_sum_erase _ _ (Finset.mem_univ j0), Finset.sdiff_singleton_eq_erase]
        ring
      have hDG : val D ∈ G := by rw [a2]; exact G.sum_mem fun j _ => (a1 j).1
      have hDlim : val D ≤ lim := by
        rw [a2]; exact (Finset.sum_le_sum fun j _ => (a1 j).2.2).trans hlim
      have hle : val (off j0) ≤ val D := by
        rw [a2]; exact Finset.single_le_sum (fun j _ => (a1 j).2.1) (Finset.mem_univ j0)
      have e1 := E.sub D (off j0) hDG (a1 j0).1 (a1 j0).2.1 hle hDlim
      have hlim' : ∑ j, val (Function.update off j0 x j) ≤ lim :=
        (Finset.sum_le_sum fun j _ => (b1 j).2.2).trans hlim
      rw [hsum] at hlim' ⊢
      rw [E.add _ _ (by rw [e1]; exact G.sub_mem hDG (a1 j0).1) x1 (by rw [e1]; linarith) x2
        (by rw [e1, a2]; exact hlim'), e1, a2])
    Inv (by rw [h2, h4]; exact hV) T.data.root 0 (fun _ => 0, s) hlt (by rw [h1, h2]; exact hg)
    (by
      intro i hi _
      refine ⟨fun j => ?_, by simp [E.zero]⟩
      rw [E.zero]
      exact ⟨G.zero_mem, le_rfl, h0 i (hlt i hi) j⟩)
    hI
  refine ⟨vis, skip, ?_, ?_, ?_⟩
  · rw [hel] at hp
    rw [h5]
    exact hp.trans hperm
  · unfold KdTree.searchNearest searchNearestRoot
    rw [he]
  · unfold KdTree.searchNearest searchNearestRoot
    rw [he]
    intro i hi near
    obtain ⟨D, off, g1, g2⟩ := hk i hi
    obtain ⟨a1, a2⟩ := g1 near
    have hi' := hlt i (hp.subset (List.mem_append_right _ hi))
    rw [h2, h4] at g2 ⊢
    refine lt_of_lt_of_le g2 ?_
    rw [E.le_iff, a2, hval i hi' near]
    exact Finset.sum_le_sum fun j _ => (a1 j).2.2

/-- Searches are exact if sums of distances are. -/
theorem exactAt_sums (E : ExactSums val G lim) {β : Type} {tag : SpaceTag α d β} {M : Metric α d} {N : Num α}
    {pts : Nat → Pt α d} {n : Nat} {o : BuildOpts α d} {fuel : Nat} {T : KdTree α d β}
    (h : KdTree.make tag M N pts n o fuel = .ok T) (hR : Representable N pts n o)
    (hn : 0 < n) (q : Pt α d) (term : Fin d → Nat → α)
    (hval : ∀ i < n, val (M.dist q (pts i)) = ∑ j, val (term j i))
    (hG : ∀ i < n, ∀ j, val (term j i) ∈ G)
    (h0 : ∀ i < n, ∀ j, 0 ≤ val (term j i))
    (hlim : ∀ i < n, ∑ j, val (term j i) ≤ lim)
    (hguard : Guard tag.splitDim (tag.pick M q) T.data.indices term T.data.root)
    (hcoord : GuardBy (tag.pick M q) T.data.indices (fun data _ => (tag.pick M q data).2 = 0 ∨
      ∃ k < n, (tag.pick M q data).2 = term (tag.splitDim data) k) T.data.root) :
    ExactAt T q := by
  intro σ V Inv s hV hI
  obtain ⟨vis, skip, h1, h2, h3⟩ := nearAt_sums E h hR hn q term (fun _ => True) (fun i hi _ => hval i hi)
    (fun i hi j _ => hG i hi j) h0 (fun i hi _ => hlim i hi) hguard hcoord σ V Inv s hV hI
  exact ⟨vis, skip, h1, h2, fun i hi => h3 i hi trivial⟩

/-- Euclidean searches are exact if sums of distances are. -/
theorem exactAt_grid (E : ExactSums val G lim) {M : Metric α d} {N : Num α} {pts : Nat → Pt α d} {n : Nat}
    {o : BuildOpts α d} {fuel : Nat} {T : KdTree α d (Branch1 α d)}
    (h : KdTree.make (euclideanTag α d) M N pts n o fuel = .ok T) (hR : Representable N pts n o)
    (hn : 0 < n) (hr : o.rule ≠ .midpoint) (q : Pt α d)
    (hdist : ∀ i < n, M.dist q (pts i) = loopSum fun j => M.one (q j - pts i j))
    (hsymm : ∀ i < n, ∀ j, M.one (pts i j - q j) = M.one (q j - pts i j))
    (hG : ∀ i < n, ∀ j, val (M.one (q j - pts i j)) ∈ G)
    (h0 : ∀ i < n, ∀ j, 0 ≤ val (M.one (q j - pts i j)))
    (hlim : ∀ i < n, ∑ j, val (M.one (q j - pts i j)) ≤ lim)
    (hguard : Guard (euclideanTag α d).splitDim ((euclideanTag α d).pick M q) T.data.indices
      (fun j i => M.one (q j - pts i j)) T.data.root) :
    ExactAt T q ∧ ∀ i < n, val (M.dist q (pts i)) = ∑ j, val (M.one (q j - pts i j)) := by
  have hval : ∀ i < n, val (M.dist q (pts i)) = ∑ j, val (M.one (q j - pts i j)) := by
    intro i hi
    rw [hdist i hi]
    exact E.loopSum _ (hG i hi) (h0 i hi) (hlim i hi)
  obtain ⟨_, _, _, _, _, hb⟩ := KdTree.make_ok h
  obtain ⟨_, box, hcr⟩ := buildTree_created hb
  have hc := hcr.guardCoord (n := n) rfl hR.num hr M q (fun i hi => List.mem_range.1 hi) hR.points [] [] rfl
  simp only [List.nil_append, List.append_nil] at hc
  refine ⟨exactAt_sums E h hR hn q (fun j i => M.one (q j - pts i j)) hval hG h0 hlim hguard
    (hc.mono ?_), hval⟩
  rintro data - ⟨k, hk, e⟩
  exact .inr ⟨k, hk, e.trans (hsymm k hk _)⟩

end Exact

end Pico
