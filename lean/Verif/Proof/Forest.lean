import Verif.Model.Forest
import Verif.Proof.Euclid
import Verif.Proof.Shape

/-! # The priority search of the kd forest -/

set_option linter.unusedSectionVars false

namespace Pico

open Spec

theorem Tree.elems_eq_ranges {β : Type} (indices : List Nat) (t : Tree β) :
    t.elems indices = (ranges t).flatMap fun x => slice indices x.1 x.2 := by
  induction t with
  | leaf b e => simp [Tree.elems, ranges_leaf]
  | branch data l r ih1 ih2 => rw [Tree.elems, ranges_branch, List.flatMap_append, ih1, ih2]

theorem Tree.mem_elems {β : Type} {indices : List Nat} {t : Tree β} {x : Nat × Nat} {i : Nat}
    (hx : x ∈ ranges t) (hi : i ∈ slice indices x.1 x.2) : i ∈ t.elems indices := by
  rw [Tree.elems_eq_ranges]
  exact List.mem_flatMap.2 ⟨x, hx, hi⟩

section Generic
variable {α : Type} [LinearOrder α] [Zero α] [Add α] [Sub α] {d : Nat} {σ : Type}
variable (M : Metric α d) (q : Pt α d) (V : Visitor α σ) (dist : Nat → α) (indices : List Nat)
/- `Ok D t`: the queue may hold node `t` with distance `D`; `Low D i`: `D` is a bound for point `i`. -/
variable (Ok : α → Tree (Branch2 α d) → Prop) (Low : α → Nat → Prop)
variable (hlow : ∀ D t, Ok D t → ∀ i ∈ t.elems indices, Low D i)
variable (hbranch : ∀ D data l r, Ok D (.branch data l r) →
  let p := pickPriority M q data
  Ok D (if p.1 then l else r) ∧ Ok (D - p.2.1 + p.2.2) (if p.1 then r else l))

include hlow hbranch in
/-- A descent visits one leaf; every other leaf below the node is in the queue or out of reach. -/
theorem priorityDescend_spec (t : Tree (Branch2 α d)) (D : α) (s : σ) (W : List (α × Tree (Branch2 α d)))
    (hok : Ok D t) :
    ∃ x Sk P, priorityDescend M q V dist indices t D (s, W) =
        (visitAll V dist (slice indices x.1 x.2) s, P ++ W) ∧
      (x :: (Sk ++ P.flatMap fun p => ranges p.2)).Perm (ranges t) ∧ (∀ p ∈ P, Ok p.1 p.2) ∧
      ∀ y ∈ Sk, ∀ i ∈ slice indices y.1 y.2,
        ∃ D', Low D' i ∧ V.max (visitAll V dist (slice indices x.1 x.2) s) ≤ D' := by
  induction t generalizing D with
  | leaf b e => exact ⟨(b, e), [], [], rfl, by simp [ranges_leaf], by simp, by simp⟩
  | branch data l r ihl ihr =>
    obtain ⟨h1, h2⟩ := hbranch D data l r hok
    rw [priorityDescend]
    set p := pickPriority M q data with hp
    have key : ∀ t1 t2 : Tree (Branch2 α d), Ok D t1 → Ok (D - p.2.1 + p.2.2) t2 →
        (∀ D, Ok D t1 → ∃ x Sk P, priorityDescend M q V dist indices t1 D (s, W) =
          (visitAll V dist (slice indices x.1 x.2) s, P ++ W) ∧
          (x :: (Sk ++ P.flatMap fun p => ranges p.2)).Perm (ranges t1) ∧ (∀ p ∈ P, Ok p.1 p.2) ∧
          ∀ y ∈ Sk, ∀ i ∈ slice indices y.1 y.2,
            ∃ D', Low D' i ∧ V.max (visitAll V dist (slice indices x.1 x.2) s) ≤ D') →
        ∃ x Sk P, (if V.max (priorityDescend M q V dist indices t1 D (s, W)).1 > D - p.2.1 + p.2.2 then
            ((priorityDescend M q V dist indices t1 D (s, W)).1,
              (D - p.2.1 + p.2.2, t2) :: (priorityDescend M q V dist indices t1 D (s, W)).2)
          else priorityDescend M q V dist indices t1 D (s, W)) =
          (visitAll V dist (slice indices x.1 x.2) s, P ++ W) ∧
          (x :: (Sk ++ P.flatMap fun p => ranges p.2)).Perm (ranges t1 ++ ranges t2) ∧
          (∀ p ∈ P, Ok p.1 p.2) ∧
          ∀ y ∈ Sk, ∀ i ∈ slice indices y.1 y.2,
            ∃ D', Low D' i ∧ V.max (visitAll V dist (slice indices x.1 x.2) s) ≤ D' := by
      intro t1 t2 h1 h2 ih
      obtain ⟨x, Sk, P, he, hperm, hP, hS⟩ := ih D h1
      rw [he]
      dsimp only
      split_ifs with hc
      · refine ⟨x, Sk, (D - p.2.1 + p.2.2, t2) :: P, rfl, ?_, ?_, hS⟩
        · rw [List.flatMap_cons]
          dsimp only
          refine List.Perm.trans ?_ (hperm.append_right (ranges t2))
          simp only [List.cons_append, List.append_assoc]
          exact ((List.perm_append_comm).append_left Sk).cons x
        · intro y hy
          rcases List.mem_cons.1 hy with rfl | hy
          exacts [h2, hP y hy]
      · refine ⟨x, Sk ++ ranges t2, P, rfl, ?_, hP, ?_⟩
        · refine List.Perm.trans ?_ (hperm.append_right (ranges t2))
          simp only [List.cons_append, List.append_assoc]
          exact ((List.perm_append_comm).append_left Sk).cons x
        · intro y hy i hi
          rcases List.mem_append.1 hy with hy | hy
          · exact hS y hy i hi
          · exact ⟨_, hlow _ _ h2 i (Tree.mem_elems hy hi), not_lt.1 hc⟩
    cases hb : p.1 with
    | true =>
      simp only [hb, if_true] at h1 h2 ⊢
      obtain ⟨x, Sk, P, he, h⟩ := key l r h1 h2 ihl
      rw [ranges_branch]
      exact ⟨x, Sk, P, he, h⟩
    | false =>
      simp only [hb, if_false, Bool.false_eq_true] at h1 h2 ⊢
      obtain ⟨x, Sk, P, he, hperm, h⟩ := key r l h1 h2 ihr
      rw [ranges_branch]
      exact ⟨x, Sk, P, he, hperm.trans List.perm_append_comm, h⟩

include hlow hbranch in
/-- The loop finishes after at most one round for each leaf. The leaves are visited (`Ls`), out of reach (`Sk`),
or left over (`Un`) as the budget was used up. -/
theorem priorityLoop_spec (Q : StdQueue α (Tree (Branch2 α d))) (maxLeaves : Nat) (A : Nat → Prop)
    (Inv : σ → Prop) (hV : Shrinks V dist A Inv) (fuel v : Nat) (s : σ)
    (W : List (α × Tree (Branch2 α d))) (hok : ∀ p ∈ W, Ok p.1 p.2)
    (hA : ∀ p ∈ W, ∀ i ∈ p.2.elems indices, A i) (hI : Inv s)
    (hfuel : (W.flatMap fun p => ranges p.2).length < fuel) :
    ∃ t Ls Sk Un, priorityLoop Q M q V dist indices maxLeaves fuel v (s, W) = .ok t ∧
      t = visitAll V dist (Ls.flatMap fun x => slice indices x.1 x.2) s ∧
      (Ls ++ (Sk ++ Un)).Perm (W.flatMap fun (p : α × Tree (Branch2 α d)) => ranges p.2) ∧
      (∀ y ∈ Sk, ∀ i ∈ slice indices y.1 y.2, ∃ D, Low D i ∧ V.max t ≤ D) ∧
      v + Ls.length ≤ max v maxLeaves ∧ (Un ≠ [] → maxLeaves ≤ v + Ls.length) ∧
      (Ls = [] → W = [] ∨ maxLeaves ≤ v ∨ ∃ p ∈ W, V.max s < p.1) := by
  induction fuel generalizing v s W with
  | zero => omega
  | succ fuel ih =>
    cases W with
    | nil =>
      refine ⟨s, [], [], [], ?_, rfl, by simp, by simp, by simp, by simp, by simp⟩
      rw [priorityLoop, Q.empty]
    | cons w W =>
      obtain ⟨y, r, hy, hyr, hmin⟩ := Q.top w W
      have hperm : ((y :: r).flatMap fun p => ranges p.2).Perm ((w :: W).flatMap fun p => ranges p.2) :=
        hyr.flatMap_right _
      have hin : ∀ p ∈ y :: r, p ∈ w :: W := fun p hp => hyr.subset hp
      rw [priorityLoop, hy]
      dsimp only
      by_cases hm : v ≥ maxLeaves
      · rw [if_pos (Or.inl hm)]
        exact ⟨s, [], [], (w :: W).flatMap fun p => ranges p.2, rfl, rfl, List.Perm.refl _, by simp, by simp, fun _ => by simpa using hm,
          fun _ => Or.inr (Or.inl hm)⟩
      by_cases hx : V.max s < y.1
      · rw [if_pos (Or.inr hx)]
        refine ⟨s, [], (y :: r).flatMap fun p => ranges p.2, [], rfl, rfl, by simpa using hperm, ?_, by simp,
          by simp, fun _ => Or.inr (Or.inr ⟨y, hin y (by simp), hx⟩)⟩
        intro z hz i hi
        obtain ⟨p, hp, hz⟩ := List.mem_flatMap.1 hz
        refine ⟨p.1, hlow _ _ (hok p (hin p hp)) i (Tree.mem_elems hz hi), ?_⟩
        rcases List.mem_cons.1 hp with rfl | hp
        · exact hx.le
        · exact hx.le.trans (hmin p hp)
      rw [if_neg (by tauto)]
      obtain ⟨x, Sk, P, he, hpd, hP, hS⟩ := priorityDescend_spec M q V dist indices Ok Low hlow hbranch y.2 y.1 s r
        (hok y (hin y (by simp)))
      rw [he]
      have hxy : x ∈ ranges y.2 := hpd.subset (by simp)
      have hAx : ∀ i ∈ slice indices x.1 x.2, A i := fun i hi =>
        hA y (hin y (by simp)) i (Tree.mem_elems hxy hi)
      have hI' := (hV.visitAll _ hAx s hI).1
      have hlen := hpd.length_eq
      have hlen' := hperm.length_eq
      simp only [List.flatMap_cons, List.length_append, List.length_cons] at hlen hlen' hfuel
      obtain ⟨t, Ls, Sk', Un, h1, h2, h3, h4, h5, h6, -⟩ := ih (v + 1)
        (visitAll V dist (slice indices x.1 x.2) s) (P ++ r) (by
          intro p hp
          rcases List.mem_append.1 hp with hp | hp
          · exact hP p hp
          · exact hok p (hin p (by simp [hp])))
        (by
          intro p hp i hi
          rcases List.mem_append.1 hp with hp | hp
          · rw [Tree.elems_eq_ranges] at hi
            obtain ⟨z, hz, hi⟩ := List.mem_flatMap.1 hi
            refine hA y (hin y (by simp)) i (Tree.mem_elems (hpd.subset ?_) hi)
            exact List.mem_cons_of_mem _ (List.mem_append_right _ (List.mem_flatMap.2 ⟨p, hp, hz⟩))
          · exact hA p (hin p (by simp [hp])) i hi)
        hI' (by rw [List.flatMap_append, List.length_append]; omega)
      have hAL : ∀ i ∈ Ls.flatMap fun x => slice indices x.1 x.2, A i := by
        intro i hi
        obtain ⟨z, hz, hi⟩ := List.mem_flatMap.1 hi
        have hz := h3.subset (List.mem_append_left _ hz)
        obtain ⟨p, hp, hz⟩ := List.mem_flatMap.1 hz
        rcases List.mem_append.1 hp with hp | hp
        · refine hA y (hin y (by simp)) i (Tree.mem_elems (hpd.subset ?_) hi)
          exact List.mem_cons_of_mem _ (List.mem_append_right _ (List.mem_flatMap.2 ⟨p, hp, hz⟩))
        · exact hA p (hin p (by simp [hp])) i (Tree.mem_elems hz hi)
      have hmax : V.max t ≤ V.max (visitAll V dist (slice indices x.1 x.2) s) := by
        rw [h2]
        exact (hV.visitAll _ hAL _ hI').2
      refine ⟨t, x :: Ls, Sk ++ Sk', Un, h1, ?_, ?_, ?_, ?_, ?_, by simp⟩
      · rw [h2, List.flatMap_cons, visitAll_append]
      · refine List.Perm.trans ?_ hperm
        rw [List.flatMap_cons]
        refine List.Perm.trans ?_ (hpd.append_right _)
        rw [List.flatMap_append] at h3
        simp only [List.cons_append, List.append_assoc]
        refine List.Perm.cons x ?_
        calc (Ls ++ (Sk ++ (Sk' ++ Un))).Perm (Sk ++ (Ls ++ (Sk' ++ Un))) := by
              rw [← List.append_assoc Ls Sk, ← List.append_assoc Sk Ls]
              exact List.perm_append_comm.append_right _
          _ |>.Perm _ := h3.append_left Sk
      · intro z hz i hi
        rcases List.mem_append.1 hz with hz | hz
        · obtain ⟨D, hD, hle⟩ := hS z hz i hi
          exact ⟨D, hD, hmax.trans hle⟩
        · exact h4 z hz i hi
      · rw [List.length_cons]; omega
      · intro hU
        have := h6 hU
        rw [List.length_cons]; omega

end Generic

section Shape
variable {α : Type} [LinearOrder α] {d : Nat}

theorem Built.nonempty {pts : Nat → Pt α d} {sb : Box α d → Box α d → Fin d → Branch2 α d} {o : Nat}
    {t : Tree (Branch2 α d)} {seg : List Nat} {box : Box α d} (h : Built pts sb o t seg box)
    (hne : ∀ r ∈ ranges t, r.1 < r.2) : ∃ i, i ∈ seg := by
  induction h with
  | @leaf o seg box h =>
    have := hne (o, o + seg.length) (by simp [ranges_leaf])
    exact ⟨_, List.getElem_mem (l := seg) (n := 0) (by simp at this; omega)⟩
  | @branch o l r segL segR boxL boxR dim hl hr hlr ih1 ih2 =>
    obtain ⟨i, hi⟩ := ih1 fun x hx => hne x (by rw [ranges_branch]; simp [hx])
    exact ⟨i, by simp [hi]⟩

theorem Built.proper {pts : Nat → Pt α d} {sb : Box α d → Box α d → Fin d → Branch2 α d} {o : Nat}
    {t : Tree (Branch2 α d)} {seg : List Nat} {box : Box α d} (h : Built pts sb o t seg box)
    (hne : ∀ r ∈ ranges t, r.1 < r.2) (j : Fin d) : box.min j ≤ box.max j := by
  obtain ⟨i, hi⟩ := h.nonempty hne
  exact (h.mem i hi j).1.trans (h.mem i hi j).2

end Shape

section Bound
variable {α : Type} [CommRing α] [LinearOrder α] [IsStrictOrderedRing α] {d : Nat}

/-- The contribution of axis `j` to the distance from `q` to a box. -/
def gap (M : Metric α d) (q : Pt α d) (box : Box α d) (j : Fin d) : α :=
  if q j ≤ box.min j then M.one (box.min j - q j)
  else if box.max j ≤ q j then M.one (box.max j - q j) else 0

variable {M : Metric α d} (hM : EuclideanAdditive M) (q : Pt α d)
include hM

theorem gap_nonneg (box : Box α d) (j : Fin d) : 0 ≤ gap M q box j := by
  unfold gap
  split_ifs
  exacts [hM.one_nonneg _, hM.one_nonneg _, le_rfl]

theorem gap_le {box : Box α d} {x : Pt α d} {j : Fin d} (h : box.min j ≤ x j ∧ x j ≤ box.max j) :
    gap M q box j ≤ M.one (q j - x j) := by
  unfold gap
  split_ifs with h1 h2
  · apply hM.one_mono
    rw [abs_of_nonneg (by linarith), abs_of_nonpos (by linarith)]
    linarith [h.1]
  · apply hM.one_mono
    rw [abs_of_nonpos (by linarith), abs_of_nonneg (by linarith [h.2])]
    linarith [h.2]
  · exact hM.one_nonneg _

theorem gap_mono {a b : Box α d} {j : Fin d} (hb : b.min j ≤ b.max j) (h1 : a.min j ≤ b.min j)
    (h2 : b.max j ≤ a.max j) : gap M q a j ≤ gap M q b j := by
  by_cases c1 : q j ≤ a.min j
  · rw [gap, if_pos c1, gap, if_pos (c1.trans h1)]
    apply hM.one_mono
    rw [abs_of_nonneg (by linarith), abs_of_nonneg (by linarith)]
    linarith
  · by_cases c2 : a.max j ≤ q j
    · rw [gap, if_neg c1, if_pos c2, gap]
      split_ifs with c3 c4
      · apply hM.one_mono
        rw [abs_of_nonpos (by linarith), abs_of_nonneg (by linarith)]
        linarith
      · apply hM.one_mono
        rw [abs_of_nonpos (by linarith), abs_of_nonpos (by linarith)]
        linarith
      · exact absurd (h2.trans c2) c4
    · rw [gap, if_neg c1, if_neg c2]
      exact gap_nonneg hM q b j

/-- A node may be in the queue with distance `D`: `D` is a sum of contributions that do not exceed those of the
box of the node. -/
def QueueOk (M : Metric α d) (q : Pt α d) (pts : Nat → Pt α d) (indices : List Nat) (D : α)
    (t : Tree (Branch2 α d)) : Prop :=
  ∃ o seg box pre post, ∃ acc : Pt α d, Built pts setBranchTopological o t seg box ∧ o = pre.length ∧
    indices = pre ++ (seg ++ post) ∧ (∀ r ∈ ranges t, r.1 < r.2) ∧ D = ∑ j, acc j ∧
    ∀ j, acc j ≤ gap M q box j

theorem QueueOk.low {pts : Nat → Pt α d} {indices : List Nat} {D : α} {t : Tree (Branch2 α d)}
    (h : QueueOk M q pts indices D t) : ∀ i ∈ t.elems indices, D ≤ M.dist q (pts i) := by
  obtain ⟨o, seg, box, pre, post, acc, hB, ho, rfl, -, rfl, hacc⟩ := h
  intro i hi
  rw [hB.elems_eq pre post ho] at hi
  rw [hM.dist_eq]
  exact Finset.sum_le_sum fun j _ => (hacc j).trans (gap_le hM q (hB.mem i hi j))

theorem QueueOk.branch (h0 : M.one 0 = 0) {pts : Nat → Pt α d} {indices : List Nat} {D : α} {data : Branch2 α d}
    {l r : Tree (Branch2 α d)} (h : QueueOk M q pts indices D (.branch data l r)) :
    let p := pickPriority M q data
    QueueOk M q pts indices D (if p.1 then l else r) ∧
      QueueOk M q pts indices (D - p.2.1 + p.2.2) (if p.1 then r else l) := by
  obtain ⟨o, seg, box, pre, post, acc, hB, ho, hind, hne, hD, hacc⟩ := h
  cases hB with
  | @branch _ _ _ segL segR boxL boxR dim hl hr hlr =>
    have hnl : ∀ x ∈ ranges l, x.1 < x.2 := fun x hx => hne x (by rw [ranges_branch]; simp [hx])
    have hnr : ∀ x ∈ ranges r, x.1 < x.2 := fun x hx => hne x (by rw [ranges_branch]; simp [hx])
    have pl := hl.proper hnl
    have pr := hr.proper hnr
    have il : indices = pre ++ (segL ++ (segR ++ post)) := by rw [hind]; simp
    have ir : indices = (pre ++ segL) ++ (segR ++ post) := by rw [hind]; simp
    have or : o + segL.length = (pre ++ segL).length := by simp [ho]
    have gl : ∀ j, gap M q (boxL.fitBox boxR) j ≤ gap M q boxL j := fun j =>
      gap_mono hM q (pl j) (by rw [Box.fitBox_min]; exact min_le_left _ _)
        (by rw [Box.fitBox_max]; exact le_max_left _ _)
    have gr : ∀ j, gap M q (boxL.fitBox boxR) j ≤ gap M q boxR j := fun j =>
      gap_mono hM q (pr j) (by rw [Box.fitBox_min]; exact min_le_right _ _)
        (by rw [Box.fitBox_max]; exact le_max_right _ _)
    have hmin : (boxL.fitBox boxR).min dim = boxL.min dim := by
      rw [Box.fitBox_min, min_eq_left ((pl dim).trans hlr)]
    have hmax : (boxL.fitBox boxR).max dim = boxR.max dim := by
      rw [Box.fitBox_max, max_eq_right (hlr.trans (pr dim))]
    have second : ∀ (old new : α) (b : Box α d), acc dim ≤ old → new ≤ gap M q b dim →
        (∀ j, acc j ≤ gap M q b j) →
        D - old + new = ∑ j, Function.update acc dim (acc dim - old + new) j ∧
          ∀ j, Function.update acc dim (acc dim - old + new) j ≤ gap M q b j := by
      intro old new b h1 h2 h3
      refine ⟨?_, fun j => ?_⟩
      · have := sum_step D acc dim (acc dim - old + new) hD
        rw [← this]
        ring
      · by_cases hj : j = dim
        · subst hj
          rw [Function.update_self]
          linarith
        · rw [Function.update_of_ne hj]
          exact h3 j
    have haccl := fun j => (hacc j).trans (gl j)
    have haccr := fun j => (hacc j).trans (gr j)
    have hd := hacc dim
    dsimp only [pickPriority, setBranchTopological]
    by_cases hc : boxL.max dim + boxR.min dim - q dim - q dim > 0
    · simp only [if_pos hc, if_true]
      have hq : q dim < boxR.min dim := by linarith
      refine ⟨⟨o, segL, boxL, pre, segR ++ post, acc, hl, ho, il, hnl, hD, haccl⟩, ?_⟩
      obtain ⟨e, b⟩ := second (if q dim > boxL.min dim then 0 else M.one (boxL.min dim - q dim))
        (M.one (boxR.min dim - q dim)) boxR (by
          unfold gap at hd
          rw [hmin, hmax] at hd
          split_ifs at hd ⊢ with c1 c2 c3 c4
          · exact absurd c2 (not_le.2 c1)
          · exact absurd (hq.trans_le (pr dim)) (not_lt.2 c3)
          · exact hd
          · exact hd
          · exact absurd (not_lt.1 c1) ‹_›
          · exact absurd (not_lt.1 c1) ‹_›) (by
          unfold gap
          rw [if_pos hq.le]) haccr
      exact ⟨_, segR, boxR, pre ++ segL, post, _, hr, or, ir, hnr, e, b⟩
    · simp only [if_neg hc, if_false, Bool.false_eq_true]
      have hq : boxL.max dim ≤ q dim := by linarith
      refine ⟨⟨_, segR, boxR, pre ++ segL, post, acc, hr, or, ir, hnr, hD, haccr⟩, ?_⟩
      obtain ⟨e, b⟩ := second (if q dim < boxR.max dim then 0 else M.one (boxR.max dim - q dim))
        (M.one (boxL.max dim - q dim)) boxL (by
          unfold gap at hd
          rw [hmin, hmax] at hd
          have hL := pl dim
          split_ifs at hd ⊢ with c1 c2 c3 c4
          · have : boxL.min dim - q dim = 0 := by linarith
            rw [this, h0] at hd
            exact hd
          · exact absurd c1 (not_lt.2 c3)
          · exact hd
          · have : boxL.min dim - q dim = 0 := by linarith
            rw [this, h0] at hd
            exact hd.trans (hM.one_nonneg _)
          · exact hd
          · exact absurd (not_lt.1 c1) ‹_›) (by
          have hL := pl dim
          unfold gap
          split_ifs with c1
          · have e1 : boxL.min dim - q dim = 0 := by linarith
            have e2 : boxL.max dim - q dim = 0 := by linarith
            rw [e1, e2]
          · exact le_rfl) haccl
      exact ⟨o, segL, boxL, pre, segR ++ post, _, hl, ho, il, hnl, e, b⟩

end Bound

end Pico
