import Verif.Proof.CoverBuild
import Verif.Proof.Approx

/-! # Searching a cover tree -/

set_option linter.unusedSectionVars false

namespace Pico

namespace Cover
open Outcome (Sat)

section
variable {α L σ : Type} [LinearOrder α]

theorem everywhereList_mem {p : CNode L α → Prop} {cs : List (CNode L α)} (h : Spec.EverywhereList p cs) :
    ∀ c ∈ cs, Spec.Everywhere p c := by
  induction cs with
  | nil => simp
  | cons c cs ih =>
    intro x hx
    rcases List.mem_cons.1 hx with rfl | hx
    exacts [h.1, ih h.2 x hx]

theorem everywhere_children {p : CNode L α → Prop} {t : CNode L α} (h : Spec.Everywhere p t) :
    p t ∧ ∀ c ∈ t.children, Spec.Everywhere p c := by
  cases t with
  | node i l m cs => exact ⟨h.1, everywhereList_mem h.2⟩

theorem points_eq (t : CNode L α) : Spec.points t = t.index :: Spec.pointsList t.children := by
  cases t; rfl

theorem pointsList_perm {a b : List (CNode L α)} (h : a.Perm b) :
    (Spec.pointsList a).Perm (Spec.pointsList b) := by
  induction h with
  | nil => rfl
  | cons x _ ih => exact ih.append_left _
  | swap x y l =>
    simp only [Spec.pointsList, ← List.append_assoc]
    exact List.perm_append_comm.append_right _
  | trans _ _ h1 h2 => exact h1.trans h2

theorem mem_pointsList {c : CNode L α} {cs : List (CNode L α)} (h : c ∈ cs) {p : Nat}
    (hp : p ∈ Spec.points c) : p ∈ Spec.pointsList cs := by
  induction cs with
  | nil => cases h
  | cons x xs ih =>
    rw [Spec.pointsList, List.mem_append]
    rcases List.mem_cons.1 h with rfl | h
    exacts [Or.inl hp, Or.inr (ih h)]

theorem strictWeak_snd : StrictWeak (fun a b : CNode L α × α => decide (a.2 < b.2)) where
  irrefl a := by simp
  trans a b c h1 h2 := by simp only [decide_eq_true_eq] at *; exact h1.trans h2
  incomp a b c h1 h2 h3 h4 := by
    simp only [decide_eq_false_iff_not, not_lt] at *
    exact ⟨h3.trans h1, h2.trans h4⟩

/-- What the comparisons of the search establish: `Low x i` says that `x` counts as a lower bound of the
distance of point `i`. -/
structure LowOk [Sub α] (dq : Nat → α) (dist : Nat → Nat → α) (Pt : Nat → Prop) (Low : α → Nat → Prop) : Prop where
  self : ∀ i, Low (dq i) i
  mono : ∀ x y i, x ≤ y → Low y i → Low x i
  below : ∀ m p x, Pt m → Pt p → dist m p ≤ x → Low (dq m - x) p

/-- The search skips only points for which the final `max()` is a lower bound. -/
theorem searchNearest_low [Sub α] (sorter : StdSort (CNode L α × α)) (V : Visitor α σ) (dq : Nat → α)
    (dist : Nat → Nat → α) (Pt : Nat → Prop) (Inv : σ → Prop) (hV : Shrinks V dq Pt Inv)
    (Low : α → Nat → Prop) (hL : LowOk dq dist Pt Low) (A : Prop)
    (fuel : Nat) (t : CNode L α) (s : σ) (hA : A ∨ size t ≤ fuel)
    (hP : ∀ p ∈ Spec.points t, Pt p) (hE : Spec.Everywhere (LargestBelow dist) t) (hI : Inv s) :
    Sat A (searchNearest sorter V dq fuel t s) fun r => ∃ vis skip,
      (vis ++ skip).Perm (Spec.points t) ∧ r = visitAll V dq vis s ∧ ∀ i ∈ skip, Low (V.max r) i := by
  induction fuel generalizing t s with
  | zero =>
    rcases hA with hA | hA
    · exact Or.inl ⟨hA, rfl⟩
    · have := size_pos t; omega
  | succ fuel ih =>
    rw [searchNearest]
    have hpts := points_eq t
    obtain ⟨-, hch⟩ := everywhere_children hE
    set s0 := if V.max s > dq t.index then V.visit s t.index (dq t.index) else s with hs0
    -- the node itself
    have h0 : ∃ vis skip, vis ++ skip = [t.index] ∧ s0 = visitAll V dq vis s ∧ ∀ i ∈ skip, Low (V.max s0) i := by
      by_cases hc : V.max s > dq t.index
      · exact ⟨[t.index], [], rfl, by rw [hs0, if_pos hc]; rfl, by simp⟩
      · refine ⟨[], [t.index], rfl, by rw [hs0, if_neg hc]; rfl, ?_⟩
        intro i hi
        rw [List.mem_singleton.1 hi, hs0, if_neg hc]
        exact hL.mono _ _ _ (not_lt.1 hc) (hL.self _)
    obtain ⟨v0, k0, e0, h0, hk0⟩ := h0
    have hroot : Pt t.index := hP _ (by rw [hpts]; simp)
    set sorted := sorter.sort (fun a b => decide (a.2 < b.2)) (t.children.map fun c => (c, dq c.index))
      with hsorted
    have hperm : (sorted.map Prod.fst).Perm t.children := by
      have := (sorter.sort_perm _ (t.children.map fun c => (c, dq c.index)) strictWeak_snd).map Prod.fst
      rwa [List.map_map, show (Prod.fst ∘ fun c : CNode L α => (c, dq c.index)) = id from rfl, List.map_id] at this
    refine (Sat.foldl (P := fun rest r => (∀ x ∈ rest, x.1 ∈ t.children) ∧ ∃ vis skip,
      (vis ++ skip ++ Spec.pointsList (rest.map Prod.fst)).Perm (Spec.points t) ∧
      r = visitAll V dq vis s ∧ ∀ i ∈ skip, Low (V.max r) i) _ _ ?_ ?_).imp ?_
    · refine ⟨fun x hx => hperm.subset (List.mem_map_of_mem hx), v0, k0, ?_, h0, hk0⟩
      rw [e0, hpts]
      exact (pointsList_perm hperm).append_left _
    · rintro m rest r ⟨h1, vis, skip, h2, h3, h4⟩
      have hm := h1 m (by simp)
      have hmp : ∀ p ∈ Spec.points m.1, Pt p := fun p hp => hP p (by
        rw [hpts]; exact List.mem_cons_of_mem _ (mem_pointsList hm hp))
      have hvis : ∀ i ∈ vis, Pt i := fun i hi => hP i (h2.subset (by simp [hi]))
      have hrest : ∀ x ∈ rest, x.1 ∈ t.children := fun x hx => h1 x (by simp [hx])
      have hIr : Inv r := by rw [h3]; exact (hV.visitAll vis hvis s hI).1
      simp only [List.map_cons, Spec.pointsList] at h2
      split
      · refine (ih m.1 r (hA.imp_right fun hA => ?_) hmp (hch m.1 hm) hIr).imp ?_
        · have h5 := wt_mem (fun _ => 1) hm
          have h6 := wt_eq (fun _ => 1) t
          simp only [size] at *
          omega
        · rintro r' ⟨vis', skip', h5, h6, h7⟩
          have hvis' : ∀ i ∈ vis', Pt i := fun i hi => hmp i (h5.subset (by simp [hi]))
          refine ⟨hrest, vis ++ vis', skip ++ skip', ?_, ?_, ?_⟩
          · refine List.Perm.trans ?_ h2
            rw [← List.append_assoc _ _ (Spec.pointsList _)]
            refine List.Perm.append_right _ ?_
            refine List.Perm.trans ?_ (h5.append_left _)
            simp only [List.append_assoc]
            refine List.Perm.append_left _ ?_
            rw [← List.append_assoc, ← List.append_assoc]
            exact List.perm_append_comm.append_right _
          · rw [visitAll_append, ← h3, h6]
          · intro i hi
            rcases List.mem_append.1 hi with hi | hi
            · refine hL.mono _ _ _ ?_ (h4 i hi)
              rw [h6]
              exact (hV.visitAll vis' hvis' r hIr).2
            · exact h7 i hi
      · next hc =>
        refine Sat.ok ⟨hrest, vis, skip ++ Spec.points m.1, ?_, h3, ?_⟩
        · simpa only [List.append_assoc] using h2
        · intro i hi
          rcases List.mem_append.1 hi with hi | hi
          · exact h4 i hi
          · have h5 := (everywhere_children (hch m.1 hm)).1.1 i hi
            exact hL.mono _ _ _ (not_lt.1 hc)
              (hL.below m.1.index i _ (hmp _ (by rw [points_eq]; simp)) (hmp i hi) h5)
    · rintro r ⟨-, vis, skip, h1, h2, h3⟩
      exact ⟨vis, skip, by simpa [Spec.pointsList] using h1, h2, h3⟩

end

section
variable {α L σ : Type} [LinearOrder α] [AddCommGroup α] [IsOrderedAddMonoid α]

/-- With the triangle inequality and exact subtraction these are lower bounds. -/
theorem lowOk_exact {dq : Nat → α} {dist : Nat → Nat → α} {Pt : Nat → Prop}
    (htri : ∀ m p, Pt m → Pt p → dq m ≤ dq p + dist m p) : LowOk dq dist Pt fun x i => x ≤ dq i where
  self _ := le_rfl
  mono _ _ _ h1 h2 := h1.trans h2
  below m p x hm hp h := by
    rw [sub_le_iff_le_add]
    exact (htri m p hm hp).trans (by gcongr)

end

end Cover

namespace CoverTree
open Outcome (Sat)

section
variable {α L σ : Type} [LinearOrder α] {d : Nat}

/-- What the proofs need of a tree: it holds every point once, with right distances to descendants. -/
structure Sound (T : CoverTree α d L) : Prop where
  points : (Spec.points T.root).Perm (List.range T.n)
  largest : Spec.Everywhere (Cover.LargestBelow fun i j => T.metric.dist (T.pts i) (T.pts j)) T.root

theorem make_sound [Add α] (B : Leveling α L) (P : StdPart (CNode L Unit)) (M : Metric α d) (N : Num α)
    (pts : Nat → Pt α d) (n : Nat) (hn : 0 < n) (indices : List Nat) (hi : indices.Perm (List.range n))
    (fuel : Nat) {T : CoverTree α d L} (h : make B P M N pts n indices fuel = .ok T) :
    T.metric = M ∧ T.num = N ∧ T.pts = pts ∧ T.n = n ∧ T.Sound := by
  rw [make] at h
  have hne : indices ≠ [] := by
    intro h0
    rw [h0] at hi
    have := hi.length_eq
    simp at this
    omega
  cases hb : Cover.build B P (fun i j => M.dist (pts i) (pts j)) fuel indices with
  | ok t =>
    rw [hb] at h
    cases h
    refine ⟨rfl, rfl, rfl, rfl, ?_, Cover.build_largest B P _ fuel indices hb⟩
    exact ((Cover.build_points B P _ fuel indices hne).of_ok hb).trans hi
  | ub => rw [hb] at h; cases h
  | oof => rw [hb] at h; cases h

/-- The searches of a sound tree present all points except those for which the final `max()` is a lower
bound. -/
theorem Sound.low [Sub α] {T : CoverTree α d L} (hT : T.Sound) (sorter : StdSort (CNode L α × α)) (fuel : Nat)
    (hf : T.n ≤ fuel) (q : Pt α d) {Low : α → Nat → Prop}
    (hL : Cover.LowOk (fun i => T.metric.dist q (T.pts i)) (fun i j => T.metric.dist (T.pts i) (T.pts j)) (· < T.n)
      Low)
    (V : Visitor α σ) (Inv : σ → Prop) (s : σ)
    (hV : Shrinks V (fun i => T.metric.dist q (T.pts i)) (· < T.n) Inv) (hs : Inv s) :
    ∃ t, T.searchNearest sorter fuel q V s = .ok t ∧ ∃ vis skip, (vis ++ skip).Perm (List.range T.n) ∧
      t = visitAll V (fun i => T.metric.dist q (T.pts i)) vis s ∧ ∀ i ∈ skip, Low (V.max t) i := by
  have hsz : Cover.size T.root ≤ fuel := by
    rw [Cover.size_eq_length, hT.points.length_eq, List.length_range]; exact hf
  obtain ⟨t, ht, vis, skip, h1, h2, h3⟩ := (Cover.searchNearest_low sorter V
    (fun i => T.metric.dist q (T.pts i)) (fun i j => T.metric.dist (T.pts i) (T.pts j)) (· < T.n) Inv hV
    Low hL False fuel T.root s (Or.inr hsz)
    (fun p hp => List.mem_range.1 (hT.points.subset hp)) hT.largest hs).exists
  exact ⟨t, ht, vis, skip, h1.trans hT.points, h2, h3⟩

end

section
variable {α L σ : Type} [LinearOrder α] [AddCommGroup α] [IsOrderedAddMonoid α] {d : Nat}

/-- The searches of a sound tree present all points that matter. -/
theorem Sound.final {T : CoverTree α d L} (hT : T.Sound) (sorter : StdSort (CNode L α × α)) (fuel : Nat)
    (hf : T.n ≤ fuel) (q : Pt α d)
    (htri : ∀ m < T.n, ∀ p < T.n, T.metric.dist q (T.pts m) ≤
      T.metric.dist q (T.pts p) + T.metric.dist (T.pts m) (T.pts p))
    (V : Visitor α σ) (Inv : σ → Prop) (s : σ)
    (hV : Shrinks V (fun i => T.metric.dist q (T.pts i)) (· < T.n) Inv) (hs : Inv s) :
    ∃ t, T.searchNearest sorter fuel q V s = .ok t ∧
      Final T.n (fun i => T.metric.dist q (T.pts i)) V s t := by
  obtain ⟨t, ht, vis, skip, h1, h2, h3⟩ := hT.low sorter fuel hf q
    (Cover.lowOk_exact fun m p hm hp => htri m hm p hp) V Inv s hV hs
  exact ⟨t, ht, vis, skip, h1, h2, h3⟩

end

end CoverTree

end Pico
