import Verif.Model.ForestOrder
import Verif.Proof.ForestSearch

/-!
# The order of a priority search

Two searches over the same tree, one of which starts with a better answer or may visit more leaves.
-/

namespace Pico

open Spec

section Generic
variable {α : Type} [LinearOrder α] [Zero α] [Add α] [Sub α] {d : Nat} {σ : Type}
variable (M : Metric α d) (q : Pt α d) (V : Visitor α σ) (dist : Nat → α) (indices : List Nat)
/- `Ok D t`: the queue may hold node `t` with distance `D`. -/
variable (Ok : α → Tree (Branch2 α d) → Prop)
variable (hlow : ∀ D t, Ok D t → ∀ i ∈ t.elems indices, D ≤ dist i)
variable (hbranch : ∀ D data l r, Ok D (.branch data l r) →
  let p := pickPriority M q data
  Ok D (if p.1 then l else r) ∧ Ok (D - p.2.1 + p.2.2) (if p.1 then r else l) ∧ D ≤ D - p.2.1 + p.2.2)

include hlow hbranch in
/-- Two descents from one node: the same leaf, and what only the first one puts into the queue is out of reach of the
second. -/
theorem priorityDescend_two (t : Tree (Branch2 α d)) (D : α) (hok : Ok D t) (s s' : σ)
    (hmax : ∀ l, V.max (visitAll V dist l s') ≤ V.max (visitAll V dist l s)) :
    ∃ (x : Nat × Nat) (P P' X : List (α × Tree (Branch2 α d))), x = priorityLeaf M q t ∧ (∀ W, priorityDescend M q V dist indices t D (s, W) =
        (visitAll V dist (slice indices x.1 x.2) s, P ++ W)) ∧
      (∀ W, priorityDescend M q V dist indices t D (s', W) =
        (visitAll V dist (slice indices x.1 x.2) s', P' ++ W)) ∧
      P.Perm (P' ++ X) ∧ (∀ p ∈ P, D ≤ p.1 ∧ Ok p.1 p.2) ∧
      (∀ p ∈ X, V.max (visitAll V dist (slice indices x.1 x.2) s') ≤ p.1) ∧
      ∀ i ∈ slice indices x.1 x.2, D ≤ dist i := by
  induction t generalizing D with
  | leaf b e =>
    exact ⟨(b, e), [], [], [], rfl, fun _ => rfl, fun _ => rfl, by simp, by simp, by simp, hlow D _ hok⟩
  | branch data l r ihl ihr =>
    obtain ⟨h1, h2, h3⟩ := hbranch D data l r hok
    simp only [priorityDescend, priorityLeaf]
    set p := pickPriority M q data with hp
    have key : ∀ t1 t2 : Tree (Branch2 α d), Ok D t1 → Ok (D - p.2.1 + p.2.2) t2 →
        (∀ D, Ok D t1 → ∃ (x : Nat × Nat) (P P' X : List (α × Tree (Branch2 α d))), x = priorityLeaf M q t1 ∧ (∀ W, priorityDescend M q V dist indices t1 D (s, W) =
            (visitAll V dist (slice indices x.1 x.2) s, P ++ W)) ∧
          (∀ W, priorityDescend M q V dist indices t1 D (s', W) =
            (visitAll V dist (slice indices x.1 x.2) s', P' ++ W)) ∧
          P.Perm (P' ++ X) ∧ (∀ p ∈ P, D ≤ p.1 ∧ Ok p.1 p.2) ∧
          (∀ p ∈ X, V.max (visitAll V dist (slice indices x.1 x.2) s') ≤ p.1) ∧
          ∀ i ∈ slice indices x.1 x.2, D ≤ dist i) →
        ∃ (x : Nat × Nat) (P P' X : List (α × Tree (Branch2 α d))), x = priorityLeaf M q t1 ∧ (∀ W, (if V.max (priorityDescend M q V dist indices t1 D (s, W)).1 > D - p.2.1 + p.2.2 then
            ((priorityDescend M q V dist indices t1 D (s, W)).1,
              (D - p.2.1 + p.2.2, t2) :: (priorityDescend M q V dist indices t1 D (s, W)).2)
          else priorityDescend M q V dist indices t1 D (s, W)) =
            (visitAll V dist (slice indices x.1 x.2) s, P ++ W)) ∧
          (∀ W, (if V.max (priorityDescend M q V dist indices t1 D (s', W)).1 > D - p.2.1 + p.2.2 then
            ((priorityDescend M q V dist indices t1 D (s', W)).1,
              (D - p.2.1 + p.2.2, t2) :: (priorityDescend M q V dist indices t1 D (s', W)).2)
          else priorityDescend M q V dist indices t1 D (s', W)) =
            (visitAll V dist (slice indices x.1 x.2) s', P' ++ W)) ∧
          P.Perm (P' ++ X) ∧ (∀ p ∈ P, D ≤ p.1 ∧ Ok p.1 p.2) ∧
          (∀ p ∈ X, V.max (visitAll V dist (slice indices x.1 x.2) s') ≤ p.1) ∧
          ∀ i ∈ slice indices x.1 x.2, D ≤ dist i := by
      intro t1 t2 k1 k2 ih
      obtain ⟨x, P, P', X, hx, e1, e2, hperm, hP, hX, hi⟩ := ih D k1
      have hm := hmax (slice indices x.1 x.2)
      by_cases c2 : V.max (visitAll V dist (slice indices x.1 x.2) s') > D - p.2.1 + p.2.2
      · have c1 := lt_of_lt_of_le c2 hm
        refine ⟨x, (D - p.2.1 + p.2.2, t2) :: P, (D - p.2.1 + p.2.2, t2) :: P', X, hx, fun W => ?_, fun W => ?_,
          hperm.cons _, ?_, hX, hi⟩
        · rw [e1, if_pos c1]; rfl
        · rw [e2, if_pos c2]; rfl
        · intro y hy
          rcases List.mem_cons.1 hy with rfl | hy
          exacts [⟨h3, k2⟩, hP y hy]
      · by_cases c1 : V.max (visitAll V dist (slice indices x.1 x.2) s) > D - p.2.1 + p.2.2
        · refine ⟨x, (D - p.2.1 + p.2.2, t2) :: P, P', (D - p.2.1 + p.2.2, t2) :: X, hx, fun W => ?_, fun W => ?_, ?_, ?_, ?_,
            hi⟩
          · rw [e1, if_pos c1]; rfl
          · rw [e2, if_neg c2]
          · exact (hperm.cons _).trans List.perm_middle.symm
          · intro y hy
            rcases List.mem_cons.1 hy with rfl | hy
            exacts [⟨h3, k2⟩, hP y hy]
          · intro y hy
            rcases List.mem_cons.1 hy with rfl | hy
            exacts [not_lt.1 c2, hX y hy]
        · exact ⟨x, P, P', X, hx, fun W => by rw [e1, if_neg c1], fun W => by rw [e2, if_neg c2], hperm, hP, hX, hi⟩
    cases hb : p.1 with
    | true =>
      simp only [hb, if_true] at h1 h2 ⊢
      exact key l r h1 h2 ihl
    | false =>
      simp only [hb, if_false, Bool.false_eq_true] at h1 h2 ⊢
      exact key r l h1 h2 ihr

/-- `R s' s`: the answer in the state `s'` is at least as good as the one in `s`, whatever else is presented to the
first visitor, and points out of its reach to the second. -/
structure Better (V : Visitor α σ) (dist : Nat → α) (R : σ → σ → Prop) : Prop where
  max : ∀ {s' s}, R s' s → V.max s' ≤ V.max s
  both : ∀ {s' s}, R s' s → ∀ i, R (V.visit s' i (dist i)) (V.visit s i (dist i))
  more : ∀ {s' s}, R s' s → ∀ i, R (V.visit s' i (dist i)) s
  skip : ∀ {s' s}, R s' s → ∀ i, V.max s' ≤ dist i → R s' (V.visit s i (dist i))

variable {V dist} {R : σ → σ → Prop}

omit [Zero α] [Add α] [Sub α] in
theorem Better.both_all (h : Better V dist R) (l : List Nat) : ∀ {s' s : σ}, R s' s →
    R (visitAll V dist l s') (visitAll V dist l s) := by
  induction l with
  | nil => exact fun hR => hR
  | cons i l ih => exact fun hR => ih (h.both hR i)

omit [Zero α] [Add α] [Sub α] in
theorem Better.more_all (h : Better V dist R) (l : List Nat) : ∀ {s' s : σ}, R s' s → R (visitAll V dist l s') s := by
  induction l with
  | nil => exact fun hR => hR
  | cons i l ih => exact fun hR => ih (h.more hR i)

omit [Zero α] [Add α] [Sub α] in
theorem Better.skip_all (h : Better V dist R) (l : List Nat) {s' : σ} (hl : ∀ i ∈ l, V.max s' ≤ dist i) : ∀ {s : σ},
    R s' s → R s' (visitAll V dist l s) := by
  induction l with
  | nil => exact fun hR => hR
  | cons i l ih => exact fun hR => ih (fun k hk => hl k (by simp [hk])) (h.skip hR i (hl i (by simp)))

variable (Q : StdQueue α (Tree (Branch2 α d)))

omit [Zero α] [Add α] [Sub α] in
theorem StdQueue.pop_perm {τ : Type} (Q : StdQueue α τ) {l : List (α × τ)} {y : α × τ} {r : List (α × τ)}
    (h : Q.pop l = some (y, r)) : (y :: r).Perm l ∧ ∀ z ∈ r, y.1 ≤ z.1 := by
  cases l with
  | nil => rw [Q.empty] at h; exact absurd h (by simp)
  | cons x l =>
    obtain ⟨y', r', h1, h2, h3⟩ := Q.top x l
    rw [h1] at h
    simp only [Option.some.injEq, Prod.mk.injEq] at h
    obtain ⟨rfl, rfl⟩ := h
    exact ⟨h2, h3⟩

omit [Zero α] [Add α] [Sub α] in
/-- The order of what is handed out from a part of the queue. -/
theorem StdQueue.Ordered.same {τ : Type} {Q : StdQueue α τ} (hQ : Q.Ordered) {W W' X : List (α × τ)}
    (hW : W.Perm (W' ++ X)) {y : α × τ} {r : List (α × τ)} (h : Q.pop W = some (y, r)) (hy : y ∈ W') :
    ∃ r', Q.pop W' = some (y, r') ∧ r.Perm (r' ++ X) := by
  obtain ⟨before, anti, hb⟩ := hQ
  cases W' with
  | nil => simp at hy
  | cons w W' =>
    obtain ⟨y', r', h1, h2, -⟩ := Q.top w W'
    have hp := (Q.pop_perm h).1
    have e : y' = y := by
      have hy' : y' ∈ y :: r := hp.symm.subset (hW.symm.subset (List.mem_append_left _ (h2.subset (by simp))))
      have hy2 : y ∈ y' :: r' := h2.symm.subset hy
      rcases List.mem_cons.1 hy' with e | hy'
      · exact e
      rcases List.mem_cons.1 hy2 with e | hy2
      · exact e.symm
      exact anti _ _ (hb _ _ _ h1 y hy2) (hb _ _ _ h y' hy')
    subst e
    refine ⟨r', h1, ?_⟩
    have : (y' :: r).Perm (y' :: (r' ++ X)) := hp.trans (hW.trans (h2.symm.append_right X))
    exact this.cons_inv

include hlow hbranch in
/-- The rest of a search keeps the answer better than any given one. -/
theorem priorityLoop_more (h : Better V dist R) (maxLeaves : Nat) : ∀ (fuel v : Nat) (s' s t' : σ)
    (W : List (α × Tree (Branch2 α d))), (∀ p ∈ W, Ok p.1 p.2) → R s' s →
    priorityLoop Q M q V dist indices maxLeaves fuel v (s', W) = .ok t' → R t' s := by
  intro fuel
  induction fuel with
  | zero => intro v s' s t' W _ _ e; simp [priorityLoop] at e
  | succ fuel ih =>
    intro v s' s t' W hW hR e
    rw [priorityLoop] at e
    dsimp only at e
    cases hq : Q.pop W with
    | none =>
      rw [hq] at e
      simp only [Outcome.ok.injEq] at e
      exact e ▸ hR
    | some z =>
      obtain ⟨y, r⟩ := z
      rw [hq] at e
      dsimp only at e
      have hp := (Q.pop_perm hq).1
      split_ifs at e with hc
      · simp only [Outcome.ok.injEq] at e
        exact e ▸ hR
      · obtain ⟨x, P, P', X, -, e1, -, -, hP, -, -⟩ := priorityDescend_two M q V dist indices Ok hlow hbranch y.2 y.1
          (hW y (hp.subset (by simp))) s' s' (fun _ => le_rfl)
        rw [e1] at e
        refine ih _ _ _ _ _ ?_ (h.more_all _ hR) e
        intro p hp'
        rcases List.mem_append.1 hp' with hp' | hp'
        · exact (hP p hp').2
        · exact hW p (hp.subset (by simp [hp']))

include hlow hbranch in
/-- The rest of a search whose queue is out of reach of the other one. -/
theorem priorityLoop_skip (h : Better V dist R) (maxLeaves : Nat) (s' : σ) : ∀ (fuel v : Nat) (s t : σ)
    (W : List (α × Tree (Branch2 α d))), (∀ p ∈ W, Ok p.1 p.2 ∧ V.max s' ≤ p.1) → R s' s →
    priorityLoop Q M q V dist indices maxLeaves fuel v (s, W) = .ok t → R s' t := by
  intro fuel
  induction fuel with
  | zero => intro v s t W _ _ e; simp [priorityLoop] at e
  | succ fuel ih =>
    intro v s t W hW hR e
    rw [priorityLoop] at e
    dsimp only at e
    cases hq : Q.pop W with
    | none =>
      rw [hq] at e
      simp only [Outcome.ok.injEq] at e
      exact e ▸ hR
    | some z =>
      obtain ⟨y, r⟩ := z
      rw [hq] at e
      dsimp only at e
      have hp := (Q.pop_perm hq).1
      split_ifs at e with hc
      · simp only [Outcome.ok.injEq] at e
        exact e ▸ hR
      · have hy := hW y (hp.subset (by simp))
        obtain ⟨x, P, P', X, hx, e1, -, -, hP, -, hi⟩ := priorityDescend_two M q V dist indices Ok hlow hbranch y.2 y.1
          hy.1 s s (fun _ => le_rfl)
        rw [e1] at e
        refine ih _ _ _ _ ?_ (h.skip_all _ (fun i hi' => hy.2.trans (hi i hi')) hR) e
        intro p hp'
        rcases List.mem_append.1 hp' with hp' | hp'
        · exact ⟨(hP p hp').2, hy.2.trans (hP p hp').1⟩
        · exact hW p (hp.subset (by simp [hp']))

include hlow hbranch in
/-- The search with the better start and the larger budget ends with the better answer. -/
theorem priorityLoop_better (hQ : Q.Ordered) (h : Better V dist R) (hrefl : ∀ s, R s s) {m m' : Nat} (hm : m ≤ m') :
    ∀ (fuel fuel' v : Nat) (s s' t t' : σ) (W W' X : List (α × Tree (Branch2 α d))), W.Perm (W' ++ X) →
    (∀ p ∈ W, Ok p.1 p.2) → (∀ p ∈ X, V.max s' ≤ p.1) → R s' s →
    priorityLoop Q M q V dist indices m fuel v (s, W) = .ok t →
    priorityLoop Q M q V dist indices m' fuel' v (s', W') = .ok t' → R t' t := by
  intro fuel
  induction fuel with
  | zero => intro fuel' v s s' t t' W W' X _ _ _ _ e; simp [priorityLoop] at e
  | succ fuel ih =>
    intro fuel' v s s' t t' W W' X hperm hW hX hR e e'
    have hW' : ∀ p ∈ W', Ok p.1 p.2 := fun p hp => hW p (hperm.symm.subset (List.mem_append_left _ hp))
    have more : ∀ u, R s' u → R t' u := fun u hu =>
      priorityLoop_more M q indices Ok hlow hbranch Q h m' fuel' v s' u t' W' hW' hu e'
    have e0 := e
    rw [priorityLoop] at e
    dsimp only at e
    cases hq : Q.pop W with
    | none =>
      rw [hq] at e
      simp only [Outcome.ok.injEq] at e
      exact e ▸ more s hR
    | some z =>
      obtain ⟨y, r⟩ := z
      rw [hq] at e
      dsimp only at e
      obtain ⟨hp, hmin⟩ := Q.pop_perm hq
      have hmin' : ∀ p ∈ W, y.1 ≤ p.1 := by
        intro p hp'
        rcases List.mem_cons.1 (hp.symm.subset hp') with rfl | hp'
        exacts [le_rfl, hmin p hp']
      split_ifs at e with hc
      · simp only [Outcome.ok.injEq] at e
        exact e ▸ more s hR
      · by_cases hreach : V.max s' ≤ y.1 ∧ (y ∉ W' ∨ V.max s' < y.1)
        · exact more t (priorityLoop_skip M q indices Ok hlow hbranch Q h m s' (fuel + 1) v s t W
            (fun p hp' => ⟨hW p hp', hreach.1.trans (hmin' p hp')⟩) hR e0)
        · have hy : y ∈ W' := by
            by_contra hy
            have : y ∈ X := by
              rcases List.mem_append.1 (hperm.subset (hp.subset (List.mem_cons_self (a := y)))) with h1 | h1
              exacts [absurd h1 hy, h1]
            exact hreach ⟨hX y this, Or.inl hy⟩
          have hlt : ¬ V.max s' < y.1 := fun hlt => hreach ⟨hlt.le, Or.inr hlt⟩
          obtain ⟨r', hq', hrr⟩ := hQ.same hperm hq hy
          cases fuel' with
          | zero => simp [priorityLoop] at e'
          | succ fuel' =>
            rw [priorityLoop] at e'
            dsimp only at e'
            rw [hq'] at e'
            dsimp only at e'
            rw [if_neg (by
              rintro (h1 | h1)
              · exact hc (Or.inl (by omega))
              · exact hlt h1)] at e'
            obtain ⟨x, P, P', X', -, e1, e2, hPP, hP, hX', -⟩ := priorityDescend_two M q V dist indices Ok hlow hbranch
              y.2 y.1 (hW y (hp.subset (by simp))) s s' (fun l => h.max (h.both_all l hR))
            rw [e1] at e
            rw [e2] at e'
            refine ih fuel' (v + 1) _ _ t t' _ _ (X' ++ X) ?_ ?_ ?_ (h.both_all _ hR) e e'
            · calc (P ++ r).Perm ((P' ++ X') ++ (r' ++ X)) := hPP.append hrr
                _ |>.Perm ((P' ++ r') ++ (X' ++ X)) := by
                  simp only [List.append_assoc]
                  refine List.Perm.append_left P' ?_
                  rw [← List.append_assoc, ← List.append_assoc]
                  exact List.perm_append_comm.append_right X
            · intro p hp'
              rcases List.mem_append.1 hp' with hp' | hp'
              · exact (hP p hp').2
              · exact hW p (hp.subset (by simp [hp']))
            · intro p hp'
              rcases List.mem_append.1 hp' with hp' | hp'
              · exact hX' p hp'
              · exact (h.max (h.more_all _ (hrefl s'))).trans (hX p hp')

include hlow hbranch in
/-- Nodes are taken from the queue in the order of their distances, and the points of their leaves are what is presented
to the visitor. -/
theorem priorityTrace_sorted (maxLeaves : Nat) : ∀ (fuel v : Nat) (s t : σ) (W : List (α × Tree (Branch2 α d))),
    (∀ p ∈ W, Ok p.1 p.2) → priorityLoop Q M q V dist indices maxLeaves fuel v (s, W) = .ok t →
    let tr := priorityTrace Q M q V dist indices maxLeaves fuel v (s, W)
    (tr.map Prod.fst).Pairwise (· ≤ ·) ∧ (∀ c, (∀ p ∈ W, c ≤ p.1) → ∀ b ∈ tr, c ≤ b.1) ∧
      t = visitAll V dist (tr.flatMap fun x => slice indices x.2.1 x.2.2) s ∧
      ∀ x ∈ tr, ∀ i ∈ slice indices x.2.1 x.2.2, x.1 ≤ dist i := by
  intro fuel
  induction fuel with
  | zero => intro v s t W _ e; simp [priorityLoop] at e
  | succ fuel ih =>
    intro v s t W hW e
    rw [priorityLoop] at e
    rw [priorityTrace]
    dsimp only at e ⊢
    cases hq : Q.pop W with
    | none =>
      rw [hq] at e
      simp only [Outcome.ok.injEq] at e
      simp [visitAll, e]
    | some z =>
      obtain ⟨y, r⟩ := z
      rw [hq] at e
      dsimp only at e ⊢
      obtain ⟨hp, hmin⟩ := Q.pop_perm hq
      split_ifs at e ⊢ with hc
      · simp only [Outcome.ok.injEq] at e
        simp [visitAll, e]
      · obtain ⟨x, P, P', X, hx, e1, -, -, hP, -, hi⟩ := priorityDescend_two M q V dist indices Ok hlow hbranch y.2 y.1
          (hW y (hp.subset (by simp))) s s (fun _ => le_rfl)
        rw [e1] at e ⊢
        obtain ⟨i1, i2, i3, i4⟩ := ih (v + 1) (visitAll V dist (slice indices x.1 x.2) s) t (P ++ r) (by
          intro p hp'
          rcases List.mem_append.1 hp' with hp' | hp'
          · exact (hP p hp').2
          · exact hW p (hp.subset (by simp [hp']))) e
        have hall := i2 y.1 (by
          intro p hp'
          rcases List.mem_append.1 hp' with hp' | hp'
          exacts [(hP p hp').1, hmin p hp'])
        refine ⟨List.Pairwise.cons ?_ i1, fun c hcW b hb => ?_, ?_, ?_⟩
        · intro b hb
          obtain ⟨b', hb', rfl⟩ := List.mem_map.1 hb
          exact hall b' hb'
        · have hcy := hcW y (hp.subset (by simp))
          rcases List.mem_cons.1 hb with rfl | hb
          exacts [hcy, hcy.trans (hall b hb)]
        · rw [List.flatMap_cons, visitAll_append, ← hx]
          exact i3
        · intro b hb
          rcases List.mem_cons.1 hb with rfl | hb
          · rw [← hx]
            exact hi
          · exact i4 b hb

end Generic

section Bound
variable {α : Type} [CommRing α] [LinearOrder α] [IsStrictOrderedRing α] {d : Nat}

/-- The distance of the second child is not smaller than that of the node. -/
theorem QueueOk.grows {M : Metric α d} (hM : EuclideanAdditive M) {q : Pt α d}
    {pts : Nat → Pt α d} {indices : List Nat} {D : α} {data : Branch2 α d} {l r : Tree (Branch2 α d)}
    (h : QueueOk M q pts indices D (.branch data l r)) :
    D ≤ D - (pickPriority M q data).2.1 + (pickPriority M q data).2.2 := by
  obtain ⟨o, seg, box, pre, post, acc, hB, ho, hind, hne, hD, hacc⟩ := h
  cases hB with
  | @branch _ _ _ segL segR boxL boxR dim hl hr hlr =>
    have pl := hl.proper (fun x hx => hne x (by rw [ranges_branch]; simp [hx])) dim
    have pr := hr.proper (fun x hx => hne x (by rw [ranges_branch]; simp [hx])) dim
    have key : ∀ old new : α, old ≤ new → D ≤ D - old + new := fun old new h => by linarith
    dsimp only [pickPriority, setBranchTopological]
    by_cases hc : boxL.max dim + boxR.min dim - q dim - q dim > 0
    · simp only [if_pos hc]
      refine key _ _ ?_
      split_ifs with h1
      · exact hM.one_nonneg _
      · refine hM.one_mono _ _ ?_
        rw [abs_of_nonneg (by linarith), abs_of_nonneg (by linarith)]
        linarith
    · simp only [if_neg hc]
      refine key _ _ ?_
      split_ifs with h1
      · exact hM.one_nonneg _
      · refine hM.one_mono _ _ ?_
        rw [abs_of_nonpos (by linarith), abs_of_nonpos (by linarith)]
        linarith

end Bound

end Pico
