import Verif.Proof.CoverBuild
import Mathlib.Tactic.Linarith
import Mathlib.Data.List.Forall2

/-!
# Invariants of the nodes of a cover tree

The levels and the distances between the children of a node hold for every arithmetic (with symmetric
distances); the distances to all points below a node need a metric and a base of at least two (`F`).
-/

namespace Pico

open Outcome Spec

theorem Outcome.Sat.and {A : Prop} {τ : Type} {x : Outcome τ} {P Q : τ → Prop} (h : Sat A x P)
    (h' : Sat A x Q) : Sat A x fun a => P a ∧ Q a := by
  rcases h with ⟨hA, rfl⟩ | ⟨a, rfl, ha⟩
  · exact Or.inl ⟨hA, rfl⟩
  · exact Or.inr ⟨a, rfl, ha, h'.of_ok rfl⟩

namespace Cover
variable {α L γ : Type}

theorem mem_pointsList_iff {cs : List (CNode L γ)} {p : Nat} :
    p ∈ pointsList cs ↔ ∃ c ∈ cs, p ∈ points c := by
  induction cs with
  | nil => simp [pointsList]
  | cons c cs ih => simp [pointsList, ih]

theorem mem_points {c : CNode L γ} {p : Nat} : p ∈ points c ↔ p = c.index ∨ p ∈ pointsList c.children := by
  cases c; simp [points, CNode.index, CNode.children]

theorem index_mem (c : CNode L γ) : c.index ∈ points c := mem_points.2 (Or.inl rfl)

theorem child_mem {c m : CNode L γ} (h : m ∈ c.children) {p : Nat} (hp : p ∈ points m) : p ∈ points c :=
  mem_points.2 (Or.inr (mem_pointsList_iff.2 ⟨m, h, hp⟩))

theorem everywhereList_iff {p : CNode L γ → Prop} {cs : List (CNode L γ)} :
    EverywhereList p cs ↔ ∀ c ∈ cs, Everywhere p c := by
  induction cs with
  | nil => simp [EverywhereList]
  | cons c cs ih => simp [EverywhereList, ih]

theorem everywhere_iff {p : CNode L γ → Prop} {c : CNode L γ} :
    Everywhere p c ↔ p c ∧ ∀ m ∈ c.children, Everywhere p m := by
  cases c; simp [Everywhere, CNode.children, everywhereList_iff]

section Inv
variable [LinearOrder α] (F : Prop) (B : Leveling α L) (dist : Nat → Nat → α)

/-- What holds for a node and its descendants. -/
structure Inv (c : CNode L γ) : Prop where
  levels : ∀ m ∈ c.children, m.level = B.down c.level
  apart : c.children.Pairwise fun a b => B.child c.level < dist a.index b.index
  cover : F → ∀ p ∈ points c, dist c.index p ≤ B.cover c.level
  nearest : F → ∀ a ∈ c.children, ∀ b ∈ c.children, ∀ p ∈ points a, dist a.index p ≤ dist b.index p

/-- The part of the metric and of the levels that the invariants need. -/
structure Laws [Add α] : Prop where
  comm : ∀ i j, dist i j = dist j i
  down_up : ∀ l, B.down (B.up l) = l
  self : F → ∀ i j, dist i i ≤ dist j i
  zero : F → ∀ l i, dist i i ≤ B.cover l
  triangle : F → ∀ i j k, dist i k ≤ dist i j + dist j k
  swap : F → ∀ a b : α, a + b ≤ b + a
  add_le : F → ∀ a b c d : α, a ≤ c → b ≤ d → a + b ≤ c + d
  up : F → ∀ l, B.cover l + B.cover l ≤ B.cover (B.up l)
  ceil : F → ∀ i j, dist i j ≤ B.cover (B.ceilLevel (dist i j))
  floor : F → ∀ l d, B.lt l (B.floorLevel d) = false → d ≤ B.cover (B.up l)
  far : F → ∀ x c p l, B.twice (B.cover l) ≤ dist x c → dist c p ≤ B.cover l → dist c p ≤ dist x p

/-- The same node with fewer points below. -/
structure Shr (a b : CNode L γ) : Prop where
  index : a.index = b.index
  level : a.level = b.level
  sub : ∀ p ∈ points a, p ∈ points b

theorem Shr.refl (a : CNode L γ) : Shr a a := ⟨rfl, rfl, fun _ h => h⟩

theorem forall₂_mem {τ υ : Type} {S : τ → υ → Prop} {l : List τ} {l' : List υ} (h : List.Forall₂ S l l')
    {a : τ} (ha : a ∈ l) : ∃ b ∈ l', S a b := by
  induction h with
  | nil => cases ha
  | cons h _ ih =>
    rcases List.mem_cons.1 ha with rfl | ha
    · exact ⟨_, by simp, h⟩
    · obtain ⟨b, hb, hs⟩ := ih ha
      exact ⟨b, by simp [hb], hs⟩

theorem forall₂_pairwise {τ υ : Type} {S : τ → υ → Prop} {R : τ → τ → Prop} {R' : υ → υ → Prop}
    {l : List τ} {l' : List υ} (h : List.Forall₂ S l l') (hp : l'.Pairwise R')
    (hR : ∀ a b a' b', S a a' → S b b' → R' a' b' → R a b) : l.Pairwise R := by
  induction h with
  | nil => exact List.Pairwise.nil
  | cons h hl ih =>
    rw [List.pairwise_cons] at hp ⊢
    refine ⟨fun b hb => ?_, ih hp.2⟩
    obtain ⟨b', hb', hs⟩ := forall₂_mem hl hb
    exact hR _ _ _ _ h hs (hp.1 b' hb')

variable {F B dist}

theorem Inv.leaf {c : CNode L γ} (h : c.children = []) (hz : F → dist c.index c.index ≤ B.cover c.level) :
    Inv F B dist c where
  levels := by simp [h]
  apart := by simp [h]
  cover hF p hp := by
    rw [mem_points, h] at hp
    rcases hp with rfl | hp
    · exact hz hF
    · simp [pointsList] at hp
  nearest := by simp [h]

/-- Children may be dropped, reordered and lose points. -/
theorem Inv.shrink (hs : ∀ i j, dist i j = dist j i) {t : CNode L γ} (h : Inv F B dist t)
    {front cs : List (CNode L γ)} (hf : front.Subperm t.children) (hc : List.Forall₂ Shr cs front) :
    Inv F B dist (t.setChildren cs) ∧ Shr (t.setChildren cs) t := by
  have hm : ∀ a ∈ cs, ∃ b ∈ t.children, Shr a b := fun a ha => by
    obtain ⟨b, hb, hs⟩ := forall₂_mem hc ha
    exact ⟨b, hf.subset hb, hs⟩
  have hsub : ∀ p ∈ points (t.setChildren cs), p ∈ points t := by
    intro p hp
    rw [mem_points] at hp ⊢
    simp only [index_setChildren, children_setChildren] at hp
    refine hp.imp_right fun hp => ?_
    obtain ⟨a, ha, hp⟩ := mem_pointsList_iff.1 hp
    obtain ⟨b, hb, hab⟩ := hm a ha
    exact mem_pointsList_iff.2 ⟨b, hb, hab.sub p hp⟩
  refine ⟨⟨?_, ?_, ?_, ?_⟩, by simp, by simp, hsub⟩
  · simp only [children_setChildren, level_setChildren]
    intro a ha
    obtain ⟨b, hb, hab⟩ := hm a ha
    rw [hab.level]; exact h.levels b hb
  · simp only [children_setChildren, level_setChildren]
    obtain ⟨l, hl, hl'⟩ := hf
    have h1 : l.Pairwise fun a b => B.child t.level < dist a.index b.index := h.apart.sublist hl'
    have h2 : front.Pairwise fun a b => B.child t.level < dist a.index b.index :=
      (hl.pairwise_iff (fun {a b} hab => by rw [hs]; exact hab)).1 h1
    refine forall₂_pairwise hc h2 ?_
    intro a b a' b' ha hb hab
    rw [ha.index, hb.index]; exact hab
  · intro hF p hp
    simp only [index_setChildren, level_setChildren]
    exact h.cover hF p (hsub p hp)
  · simp only [children_setChildren]
    intro hF a ha b hb p hp
    obtain ⟨a', ha', ha⟩ := hm a ha
    obtain ⟨b', hb', hb⟩ := hm b hb
    rw [ha.index, hb.index]
    exact h.nearest hF a' ha' b' hb' p (ha.sub p hp)

end Inv


/-! ### Taking nodes out -/

/-- Nodes appended to `(to_move, to_stay)`: leaves that satisfy `Q1` and `Q2`. -/
def Gives (Q1 Q2 : Nat → Prop) (acc acc' : List (CNode L Unit) × List (CNode L Unit)) : Prop :=
  ∃ mv st, acc' = (acc.1 ++ mv, acc.2 ++ st) ∧ (∀ c ∈ mv, c.children = [] ∧ Q1 c.index) ∧
    ∀ c ∈ st, c.children = [] ∧ Q2 c.index

theorem Gives.refl {Q1 Q2 : Nat → Prop} (acc : List (CNode L Unit) × List (CNode L Unit)) :
    Gives Q1 Q2 acc acc := ⟨[], [], by simp, by simp, by simp⟩

theorem Gives.trans {Q1 Q2 : Nat → Prop} {x y z : List (CNode L Unit) × List (CNode L Unit)}
    (h1 : Gives Q1 Q2 x y) (h2 : Gives Q1 Q2 y z) : Gives Q1 Q2 x z := by
  obtain ⟨m1, s1, rfl, h1, k1⟩ := h1
  obtain ⟨m2, s2, rfl, h2, k2⟩ := h2
  refine ⟨m1 ++ m2, s1 ++ s2, by simp, ?_, ?_⟩
  · intro c hc
    rcases List.mem_append.1 hc with h | h
    · exact h1 c h
    · exact h2 c h
  · intro c hc
    rcases List.mem_append.1 hc with h | h
    · exact k1 c h
    · exact k2 c h

theorem Gives.move {Q1 Q2 : Nat → Prop} (acc : List (CNode L Unit) × List (CNode L Unit)) (c : CNode L Unit)
    (h : Q1 c.index) : Gives Q1 Q2 acc (acc.1 ++ [c.setChildren []], acc.2) :=
  ⟨[c.setChildren []], [], by simp, by simpa using h, by simp⟩

theorem Gives.stay {Q1 Q2 : Nat → Prop} (acc : List (CNode L Unit) × List (CNode L Unit)) (c : CNode L Unit)
    (h : Q2 c.index) : Gives Q1 Q2 acc (acc.1, acc.2 ++ [c.setChildren []]) :=
  ⟨[], [c.setChildren []], by simp, by simp, by simpa using h⟩

mutual
theorem strip_gives (f : Nat → Bool) (Q1 Q2 : Nat → Prop) : ∀ (c : CNode L Unit)
    (acc : List (CNode L Unit) × List (CNode L Unit)),
    (∀ p ∈ pointsList c.children, (f p = true → Q1 p) ∧ (f p = false → Q2 p)) →
    Gives Q1 Q2 acc (strip f c acc)
  | .node _ _ _ cs, acc, h => by
    rw [strip]
    exact stripList_gives f Q1 Q2 cs acc h

theorem stripList_gives (f : Nat → Bool) (Q1 Q2 : Nat → Prop) : ∀ (cs : List (CNode L Unit))
    (acc : List (CNode L Unit) × List (CNode L Unit)),
    (∀ p ∈ pointsList cs, (f p = true → Q1 p) ∧ (f p = false → Q2 p)) →
    Gives Q1 Q2 acc (stripList f cs acc)
  | [], acc, _ => by rw [stripList]; exact Gives.refl acc
  | c :: cs, acc, h => by
    rw [stripList]
    have hc : ∀ p ∈ points c, (f p = true → Q1 p) ∧ (f p = false → Q2 p) := fun p hp =>
      h p (mem_pointsList_iff.2 ⟨c, by simp, hp⟩)
    have h1 := strip_gives f Q1 Q2 c acc fun p hp => hc p (mem_points.2 (Or.inr hp))
    have h0 := hc c.index (index_mem c)
    refine Gives.trans (h1.trans ?_) (stripList_gives f Q1 Q2 cs _ fun p hp => ?_)
    · simp only [index_setChildren]
      split
      next hf => exact Gives.move _ c (h0.1 hf)
      next hf => exact Gives.stay _ c (h0.2 (by simpa using hf))
    · obtain ⟨m, hm, hp⟩ := mem_pointsList_iff.1 hp
      exact h p (mem_pointsList_iff.2 ⟨m, by simp [hm], hp⟩)
end

theorem strip_loop_gives (f : Nat → Bool) (Q1 Q2 : Nat → Prop) (l : List (CNode L Unit))
    (acc : List (CNode L Unit) × List (CNode L Unit)) (h1 : ∀ c ∈ l, Q1 c.index)
    (h2 : ∀ c ∈ l, ∀ p ∈ pointsList c.children, (f p = true → Q1 p) ∧ (f p = false → Q2 p)) :
    Gives Q1 Q2 acc (l.foldl (fun acc x => strip f x (acc.1 ++ [x.setChildren []], acc.2)) acc) := by
  induction l generalizing acc with
  | nil => exact Gives.refl acc
  | cons x l ih =>
    rw [List.foldl_cons]
    exact ((Gives.move acc x (h1 x (by simp))).trans (strip_gives f Q1 Q2 x _ (h2 x (by simp)))).trans
      (ih _ (fun c hc => h1 c (by simp [hc])) fun c hc => h2 c (by simp [hc]))

section
variable [LinearOrder α] {F : Prop} {B : Leveling α L} {dist : Nat → Nat → α}

/-- `extract` leaves a smaller tree all of whose proper descendants are to be kept. -/
theorem extract_inv (hs : ∀ i j, dist i j = dist j i) (P : StdPart (CNode L Unit)) (keep toMove : Nat → Bool)
    (Q1 Q2 : Nat → Prop) (fuel : Nat) (t : CNode L Unit) (acc : List (CNode L Unit) × List (CNode L Unit))
    (ht : Everywhere (Inv F B dist) t)
    (hQ : ∀ p ∈ points t, (keep p = false → Q1 p) ∧ (toMove p = true → Q1 p) ∧ (toMove p = false → Q2 p)) :
    Sat True (extract P keep toMove fuel t acc) fun r => Everywhere (Inv F B dist) r.1 ∧ Shr r.1 t ∧
      (∀ p ∈ pointsList r.1.children, keep p = true) ∧ Gives Q1 Q2 acc r.2 := by
  induction fuel generalizing t acc with
  | zero => exact Or.inl ⟨trivial, rfl⟩
  | succ fuel ih =>
    rw [extract]
    split
    next h0 =>
      exact Sat.ok ⟨ht, Shr.refl t, by simp [h0, pointsList], Gives.refl acc⟩
    next c cs hcs =>
    rw [← hcs]
    dsimp only
    have hperm := P.perm (fun x => keep x.index) t.children
    have hfront := P.front_true (fun x => keep x.index) t.children
    have hback := P.back_false (fun x => keep x.index) t.children
    generalize P.front (fun x => keep x.index) t.children = front at hperm hfront ⊢
    generalize P.back (fun x => keep x.index) t.children = back at hperm hback ⊢
    have hfm : ∀ m ∈ front, m ∈ t.children := fun m hm => hperm.subset (by simp [hm])
    have hbm : ∀ m ∈ back, m ∈ t.children := fun m hm => hperm.subset (by simp [hm])
    have hsub : front.Subperm t.children := (List.sublist_append_left front back).subperm.trans hperm.subperm
    have ht' := everywhere_iff.1 ht
    have g1 : Gives Q1 Q2 acc (back.reverse.foldl
        (fun acc x => strip toMove x (acc.1 ++ [x.setChildren []], acc.2)) acc) := by
      refine strip_loop_gives toMove Q1 Q2 _ _ ?_ ?_
      · intro m hm
        have hm := List.mem_reverse.1 hm
        exact (hQ _ (child_mem (hbm m hm) (index_mem m))).1 (hback m hm)
      · intro m hm p hp
        exact (hQ p (child_mem (hbm m (List.mem_reverse.1 hm)) (mem_points.2 (Or.inr hp)))).2
    generalize back.reverse.foldl (fun acc x => strip toMove x (acc.1 ++ [x.setChildren []], acc.2)) acc =
      acc1 at g1 ⊢
    refine Sat.bind (P := fun (r : List (CNode L Unit) × _) => List.Forall₂ Shr r.1 front ∧
      (∀ m ∈ r.1, Everywhere (Inv F B dist) m ∧ ∀ p ∈ pointsList m.children, keep p = true) ∧
      Gives Q1 Q2 acc1 r.2) ?_ ?_
    · refine (Sat.foldl (P := fun l (r : List (CNode L Unit) × _) => ∃ sfx, l.reverse ++ sfx = front ∧
        List.Forall₂ Shr r.1 sfx ∧
        (∀ m ∈ r.1, Everywhere (Inv F B dist) m ∧ ∀ p ∈ pointsList m.children, keep p = true) ∧
        Gives Q1 Q2 acc1 r.2) _ _ ?_ ?_).imp ?_
      · exact ⟨[], by simp, List.Forall₂.nil, by simp, Gives.refl _⟩
      · rintro x l r ⟨sfx, h1, h2, h3, h4⟩
        have hx : x ∈ front := by rw [← h1]; simp
        refine Sat.bind (ih x r.2 (ht'.2 x (hfm x hx)) fun p hp => hQ p (child_mem (hfm x hx) hp)) ?_
        rintro q ⟨k1, k2, k3, k4⟩
        refine Sat.ok ⟨x :: sfx, by rw [← h1]; simp, List.Forall₂.cons k2 h2, ?_, h4.trans k4⟩
        intro m hm
        rcases List.mem_cons.1 hm with rfl | hm
        · exact ⟨k1, k3⟩
        · exact h3 m hm
      · rintro r ⟨sfx, h1, h2, h3, h4⟩
        simp only [List.reverse_nil, List.nil_append] at h1
        subst h1
        exact ⟨h2, h3, h4⟩
    · rintro r ⟨h1, h2, h3⟩
      obtain ⟨k1, k2⟩ := ht'.1.shrink hs hsub h1
      refine Sat.ok ⟨everywhere_iff.2 ⟨k1, ?_⟩, k2, ?_, g1.trans h3⟩
      · intro m hm
        simp only [children_setChildren] at hm
        exact (h2 m hm).1
      · intro p hp
        simp only [children_setChildren] at hp
        obtain ⟨m, hm, hp⟩ := mem_pointsList_iff.1 hp
        rcases mem_points.1 hp with rfl | hp
        · obtain ⟨b, hb, hmb⟩ := forall₂_mem h1 hm
          rw [hmb.index]
          exact hfront b hb
        · exact (h2 m hm).2 p hp

/-- `remove_leaf` leaves a smaller tree. -/
theorem removeLast_inv (hs : ∀ i j, dist i j = dist j i) (n : Nat) (cs : List (CNode L Unit))
    (hn : sizeL cs ≤ n) (h : cs ≠ []) (hc : ∀ c ∈ cs, Everywhere (Inv F B dist) c) :
    ∃ leaf cs', removeLast cs = .ok (leaf, cs') ∧ leaf.index ∈ pointsList cs ∧
      (∀ c ∈ cs', Everywhere (Inv F B dist) c) ∧
      ∃ front, front.Sublist cs ∧ List.Forall₂ Shr cs' front := by
  induction n generalizing cs with
  | zero =>
    have := length_le_sizeL cs
    exact absurd (List.eq_nil_of_length_eq_zero (by omega)) h
  | succ n ih =>
    match cs, h with
    | [.node i l m []], _ =>
      exact ⟨.node i l m [], [], by simp [removeLast, CNode.children], by simp [pointsList, points, CNode.index],
        by simp, [], by simp, List.Forall₂.nil⟩
    | [.node i l m (c :: cs)], _ =>
      obtain ⟨h1, h2⟩ := everywhere_iff.1 (hc (.node i l m (c :: cs)) (by simp))
      obtain ⟨leaf, cs', k1, k2, k3, front, k4, k5⟩ := ih (c :: cs) (by
        simp only [sizeL, wtL_cons, wt_node, wtL_nil] at hn ⊢; omega) (by simp) h2
      obtain ⟨s1, s2⟩ := h1.shrink hs (front := front) k4.subperm k5
      refine ⟨leaf, [.node i l m cs'], ?_, ?_, ?_, [.node i l m (c :: cs)], by simp, ?_⟩
      · rw [removeLast]
        dsimp only [CNode.children]
        rw [removeLeaf, k1]
        rfl
      · exact mem_pointsList_iff.2 ⟨.node i l m (c :: cs), by simp, mem_points.2 (Or.inr k2)⟩
      · intro m hm
        rw [List.mem_singleton.1 hm]
        exact everywhere_iff.2 ⟨s1, k3⟩
      · exact List.Forall₂.cons s2 List.Forall₂.nil
    | c :: c' :: cs, _ =>
      obtain ⟨leaf, cs', k1, k2, k3, front, k4, k5⟩ := ih (c' :: cs) (by
        have := size_pos c
        simp only [sizeL, size, wtL_cons] at hn this ⊢; omega) (by simp)
        fun m hm => hc m (by simp only [List.mem_cons] at hm ⊢; exact Or.inr hm)
      refine ⟨leaf, c :: cs', ?_, ?_, ?_, c :: front, k4.cons_cons c, List.Forall₂.cons (Shr.refl c) k5⟩
      · rw [removeLast, k1]; rfl
      · obtain ⟨m, hm, hp⟩ := mem_pointsList_iff.1 k2
        exact mem_pointsList_iff.2 ⟨m, by simp only [List.mem_cons] at hm ⊢; exact Or.inr hm, hp⟩
      · intro m hm
        rcases List.mem_cons.1 hm with rfl | hm
        · exact hc m (by simp)
        · exact k3 m hm

theorem removeLeaf_inv (hs : ∀ i j, dist i j = dist j i) (t : CNode L Unit) (h : t.children ≠ [])
    (ht : Everywhere (Inv F B dist) t) :
    ∃ leaf t', removeLeaf t = .ok (leaf, t') ∧ leaf.index ∈ points t ∧ Everywhere (Inv F B dist) t' ∧
      Shr t' t := by
  cases t with
  | node i l m cs =>
    obtain ⟨h1, h2⟩ := everywhere_iff.1 ht
    obtain ⟨leaf, cs', k1, k2, k3, front, k4, k5⟩ := removeLast_inv hs _ cs le_rfl h h2
    obtain ⟨s1, s2⟩ := h1.shrink hs (front := front) k4.subperm k5
    refine ⟨leaf, .node i l m cs', ?_, mem_points.2 (Or.inr k2), everywhere_iff.2 ⟨s1, k3⟩, s2⟩
    rw [removeLeaf, k1]; rfl

/-! ### Adding nodes -/

variable (B dist F)

/-- `ins` adds a leaf below a tree that covers it. -/
def AddsInv (ins : CNode L Unit → CNode L Unit → Outcome (CNode L Unit)) : Prop :=
  ∀ tree node, node.children = [] → Everywhere (Inv F B dist) tree →
    (F → dist tree.index node.index ≤ B.cover tree.level) →
    Sat True (ins tree node) fun r => Everywhere (Inv F B dist) r ∧ r.index = tree.index ∧
      r.level = tree.level ∧ ∀ p ∈ points r, p ∈ points tree ∨ p = node.index

variable {B dist F}

theorem AddsInv.foldl {ins : CNode L Unit → CNode L Unit → Outcome (CNode L Unit)} (h : AddsInv F B dist ins)
    (tree : CNode L Unit) (ht : Everywhere (Inv F B dist) tree) (l : List (CNode L Unit))
    (hl : ∀ c ∈ l, c.children = [] ∧ (F → dist tree.index c.index ≤ B.cover tree.level)) :
    Sat True (Outcome.foldl ins tree l) fun r => Everywhere (Inv F B dist) r ∧ r.index = tree.index ∧
      r.level = tree.level ∧ ∀ p ∈ points r, p ∈ points tree ∨ ∃ c ∈ l, p = c.index := by
  refine (Sat.foldl (P := fun rest r => (∀ c ∈ rest, c ∈ l) ∧ Everywhere (Inv F B dist) r ∧
    r.index = tree.index ∧ r.level = tree.level ∧
    ∀ p ∈ points r, p ∈ points tree ∨ ∃ c ∈ l, p = c.index) _ _ ?_ ?_).imp ?_
  · exact ⟨fun c hc => hc, ht, rfl, rfl, fun p hp => Or.inl hp⟩
  · rintro x rest r ⟨h1, h2, h3, h4, h5⟩
    have hx := h1 x (by simp)
    refine (h r x (hl x hx).1 h2 (by rw [h3, h4]; exact (hl x hx).2)).imp ?_
    rintro r' ⟨k1, k2, k3, k4⟩
    refine ⟨fun c hc => h1 c (by simp [hc]), k1, k2.trans h3, k3.trans h4, fun p hp => ?_⟩
    rcases k4 p hp with hp | rfl
    · exact h5 p hp
    · exact Or.inr ⟨x, hx, rfl⟩
  · rintro r ⟨-, h⟩
    exact h

theorem argMin_le (f : CNode L Unit → α) (c : CNode L Unit) (cs : List (CNode L Unit)) {m : CNode L Unit}
    (h : (c :: cs)[argMin f (c :: cs)]? = some m) : ∀ b ∈ c :: cs, f m ≤ f b := by
  have key : ∀ (l pre : List (CNode L Unit)) (st : Nat × α × Nat), st.1 = pre.length →
      (∃ x, pre[st.2.2]? = some x ∧ f x = st.2.1 ∧ ∀ b ∈ pre, f x ≤ f b) →
      ∃ x, (pre ++ l)[(l.foldl (fun (st : Nat × α × Nat) x =>
        if f x < st.2.1 then (st.1 + 1, f x, st.1) else (st.1 + 1, st.2)) st).2.2]? = some x ∧
        ∀ b ∈ pre ++ l, f x ≤ f b := by
    intro l
    induction l with
    | nil =>
      rintro pre st - ⟨x, h1, -, h3⟩
      exact ⟨x, by simpa using h1, by simpa using h3⟩
    | cons y l ih =>
      rintro pre st h0 ⟨x, h1, h2, h3⟩
      rw [List.foldl_cons, show pre ++ y :: l = (pre ++ [y]) ++ l by simp]
      refine ih (pre ++ [y]) _ ?_ ?_
      · split <;> simp [h0]
      · split
        next hlt =>
          refine ⟨y, by simp [h0], rfl, ?_⟩
          intro b hb
          rcases List.mem_append.1 hb with hb | hb
          · exact (hlt.trans_le (h2 ▸ h3 b hb)).le
          · rw [List.mem_singleton.1 hb]
        next hlt =>
          refine ⟨x, ?_, h2, ?_⟩
          · have := (List.getElem?_eq_some_iff.1 h1).1
            rw [List.getElem?_append_left this]; exact h1
          · intro b hb
            rcases List.mem_append.1 hb with hb | hb
            · exact h3 b hb
            · rw [List.mem_singleton.1 hb, h2]; exact not_lt.1 hlt
  obtain ⟨x, h1, h2⟩ := key cs [c] (1, f c, 0) rfl ⟨c, rfl, rfl, by simp⟩
  have e : some x = some m := h1.symm.trans h
  cases e
  exact h2

variable [Add α] (hL : Laws F B dist) (P : StdPart (CNode L Unit))
include hL

theorem inv_leaf {c : CNode L Unit} (h : c.children = []) : Everywhere (Inv F B dist) c :=
  everywhere_iff.2 ⟨Inv.leaf h fun hF => hL.zero hF _ _, by simp [h]⟩

/-- The children of a node make room for the point `x`. -/
theorem rebalanceChildren_inv {ins : CNode L Unit → CNode L Unit → Outcome (CNode L Unit)}
    (h : AddsInv F B dist ins) (fuel x : Nat) (l : L) (cs toMove : List (CNode L Unit))
    (hc : ∀ c ∈ cs, Everywhere (Inv F B dist) c ∧ c.level = l) (S : Nat → Prop)
    (hS : ∀ c ∈ cs, ∀ p ∈ points c, dist x p ≤ dist c.index p → S p)
    (hm : ∀ c ∈ toMove, c.children = [] ∧ S c.index) :
    Sat True (rebalanceChildren P dist ins fuel x (B.twice (B.cover l)) cs toMove) fun q =>
      List.Forall₂ Shr q.1 cs ∧
      (∀ c ∈ q.1, Everywhere (Inv F B dist) c ∧ (F → ∀ p ∈ points c, dist c.index p ≤ dist x p)) ∧
      ∀ c ∈ q.2, c.children = [] ∧ S c.index := by
  induction cs generalizing toMove with
  | nil => exact Sat.ok ⟨List.Forall₂.nil, by simp, hm⟩
  | cons c cs ih =>
    have hc0 := hc c (by simp)
    have hcov := (everywhere_iff.1 hc0.1).1.cover
    rw [hc0.2] at hcov
    have hr := fun tm (htm : ∀ c ∈ tm, c.children = [] ∧ S c.index) =>
      ih tm (fun c h => hc c (by simp [h])) (fun c h => hS c (by simp [h])) htm
    rw [rebalanceChildren]
    split
    next hd =>
      refine Sat.bind (extract_inv (F := F) (B := B) hL.comm P _ _
        (fun p => p ∈ points c ∧ dist x p ≤ dist c.index p)
        (fun p => p ∈ points c ∧ dist c.index p ≤ dist x p) fuel c (toMove, []) hc0.1 ?_) ?_
      · intro p hp
        refine ⟨fun h => ⟨hp, ?_⟩, fun h => ⟨hp, ?_⟩, fun h => ⟨hp, ?_⟩⟩
        · simpa using h
        · exact (of_decide_eq_true h).le
        · simpa using h
      rintro r ⟨h1, h2, h3, mv, st, h4, h5, h6⟩
      simp only [List.nil_append] at h4
      rw [h4]
      refine Sat.bind (h.foldl r.1 h1 st.reverse ?_) ?_
      · intro m hm
        have := h6 m (List.mem_reverse.1 hm)
        refine ⟨this.1, fun hF => ?_⟩
        rw [h2.index, h2.level, hc0.2]
        exact hcov hF _ this.2.1
      rintro c' ⟨k1, k2, k3, k4⟩
      refine Sat.bind (hr (toMove ++ mv) ?_) ?_
      · intro m hm'
        rcases List.mem_append.1 hm' with hm' | hm'
        · exact hm m hm'
        · have := h5 m hm'
          exact ⟨this.1, hS c (by simp) _ this.2.1 this.2.2⟩
      rintro q ⟨j1, j2, j3⟩
      have hsub : ∀ p ∈ points c', p = c.index ∨ p ∈ points c ∧ dist c.index p ≤ dist x p := by
        intro p hp
        rcases k4 p hp with hp | ⟨m, hm, rfl⟩
        · rcases mem_points.1 hp with rfl | hp'
          · exact Or.inl h2.index
          · exact Or.inr ⟨h2.sub p hp, (of_decide_eq_true (h3 p hp')).le⟩
        · exact Or.inr (h6 m (List.mem_reverse.1 hm)).2
      refine Sat.ok ⟨List.Forall₂.cons ⟨k2.trans h2.index, k3.trans h2.level, fun p hp => ?_⟩ j1, ?_, j3⟩
      · rcases hsub p hp with rfl | hp
        · exact index_mem c
        · exact hp.1
      · intro m hm
        rcases List.mem_cons.1 hm with rfl | hm
        · refine ⟨k1, fun hF p hp => ?_⟩
          rw [k2, h2.index]
          rcases hsub p hp with rfl | hp
          · exact hL.self hF _ _
          · exact hp.2
        · exact j2 m hm
    next hd =>
      refine Sat.bind (hr toMove hm) ?_
      rintro q ⟨j1, j2, j3⟩
      refine Sat.ok ⟨List.Forall₂.cons (Shr.refl c) j1, ?_, j3⟩
      intro m hm
      rcases List.mem_cons.1 hm with rfl | hm
      · exact ⟨hc0.1, fun hF p hp => hL.far hF x _ p l (not_lt.1 hd) (hcov hF p hp)⟩
      · exact j2 m hm

theorem rebalance_inv {ins : CNode L Unit → CNode L Unit → Outcome (CNode L Unit)}
    (h : AddsInv F B dist ins) (fuel : Nat) (parent node : CNode L Unit) (hn : node.children = [])
    (hp : Everywhere (Inv F B dist) parent) (hd : F → dist parent.index node.index ≤ B.cover parent.level)
    (hfar : ∀ c ∈ parent.children, B.child parent.level < dist node.index c.index) :
    Sat True (rebalance B P dist ins fuel parent node) fun r => Everywhere (Inv F B dist) r ∧
      r.index = parent.index ∧ r.level = parent.level ∧
      ∀ p ∈ points r, p ∈ points parent ∨ p = node.index := by
  obtain ⟨hp0, hpc⟩ := everywhere_iff.1 hp
  rw [rebalance]
  refine Sat.bind (rebalanceChildren_inv hL P h fuel node.index (B.down parent.level) parent.children []
    (fun c hc => ⟨hpc c hc, hp0.levels c hc⟩)
    (fun p => ∃ c ∈ parent.children, p ∈ points c ∧ dist node.index p ≤ dist c.index p)
    (fun c hc p hp h => ⟨c, hc, hp, h⟩) (by simp)) ?_
  rintro q ⟨h1, h2, h3⟩
  have hcov : F → ∀ c ∈ parent.children, ∀ p ∈ points c, dist c.index p ≤ B.cover (B.down parent.level) := by
    intro hF c hc p hp
    rw [← hp0.levels c hc]
    exact (everywhere_iff.1 (hpc c hc)).1.cover hF p hp
  refine Sat.bind (h.foldl (node.setLevel (B.down parent.level))
    (inv_leaf hL (by simpa using hn)) q.2.reverse ?_) ?_
  · intro m hm
    obtain ⟨k1, c, hc, k2, k3⟩ := h3 m (List.mem_reverse.1 hm)
    refine ⟨k1, fun hF => ?_⟩
    simp only [index_setLevel, level_setLevel]
    exact k3.trans (hcov hF c hc _ k2)
  rintro node' ⟨j1, j2, j3, j4⟩
  simp only [index_setLevel, level_setLevel] at j2 j3
  have hnode : ∀ p ∈ points node', p = node.index ∨
      ∃ c ∈ parent.children, p ∈ points c ∧ dist node.index p ≤ dist c.index p := by
    intro p hp
    rcases j4 p hp with hp | ⟨m, hm, rfl⟩
    · rw [mem_points] at hp
      simp only [index_setLevel, children_setLevel, hn, pointsList] at hp
      exact Or.inl (by simpa using hp)
    · exact Or.inr (h3 m (List.mem_reverse.1 hm)).2
  have hlev : node'.setLevel (B.down parent.level) = node' := by
    cases node'; simp only [CNode.level] at j3; subst j3; rfl
  obtain ⟨s1, s2⟩ := hp0.shrink hL.comm (List.Subperm.refl _) h1
  have hpts : ∀ p ∈ points (pushChild B (parent.setChildren q.1) node'), p ∈ points parent ∨ p = node.index := by
    intro p hp
    rw [mem_points] at hp
    simp only [pushChild, index_setChildren, children_setChildren, level_setChildren, hlev] at hp
    rcases hp with rfl | hp
    · exact Or.inl (index_mem _)
    · obtain ⟨m, hm, hp⟩ := mem_pointsList_iff.1 hp
      rcases List.mem_append.1 hm with hm | hm
      · exact Or.inl (s2.sub p (child_mem (by simpa using hm) hp))
      · rw [List.mem_singleton.1 hm] at hp
        rcases hnode p hp with h | ⟨c, hc, h, -⟩
        · exact Or.inr h
        · exact Or.inl (child_mem hc h)
  refine Sat.ok ⟨everywhere_iff.2 ⟨⟨?_, ?_, ?_, ?_⟩, ?_⟩, by simp, by simp, hpts⟩
  · simp only [pushChild, children_setChildren, level_setChildren, hlev]
    intro m hm
    rcases List.mem_append.1 hm with hm | hm
    · have := s1.levels m (by simpa using hm)
      simpa using this
    · rw [List.mem_singleton.1 hm]; exact j3
  · simp only [pushChild, children_setChildren, level_setChildren, hlev]
    rw [List.pairwise_append]
    refine ⟨by simpa using s1.apart, by simp, ?_⟩
    intro a ha b hb
    rw [List.mem_singleton.1 hb, j2]
    obtain ⟨a', ha', haa⟩ := forall₂_mem h1 ha
    rw [haa.index, hL.comm]
    exact hfar a' ha'
  · intro hF p hp
    simp only [index_pushChild, level_pushChild, index_setChildren, level_setChildren]
    rcases hpts p hp with h | rfl
    · exact hp0.cover hF p h
    · exact hd hF
  · simp only [pushChild, children_setChildren, level_setChildren, hlev]
    intro hF a ha b hb p hp
    rcases List.mem_append.1 ha with ha | ha
    · rcases List.mem_append.1 hb with hb | hb
      · exact s1.nearest hF a (by simpa using ha) b (by simpa using hb) p hp
      · rw [List.mem_singleton.1 hb, j2]
        exact (h2 a ha).2 hF p hp
    · rw [List.mem_singleton.1 ha] at hp ⊢
      rw [j2]
      rcases hnode p hp with rfl | ⟨c, hc, hpc', hle⟩
      · exact hL.self hF _ _
      · rcases List.mem_append.1 hb with hb | hb
        · obtain ⟨b', hb', hbb⟩ := forall₂_mem h1 hb
          rw [hbb.index]
          exact hle.trans (hp0.nearest hF c hc b' hb' p hpc')
        · rw [List.mem_singleton.1 hb, j2]
  · simp only [pushChild, children_setChildren, level_setChildren, hlev]
    intro m hm
    rcases List.mem_append.1 hm with hm | hm
    · exact (h2 m hm).1
    · rw [List.mem_singleton.1 hm]; exact j1

/-- `insert_covered` keeps the invariants. -/
theorem insertCovered_inv (fuel : Nat) : AddsInv F B dist (insertCovered B P dist fuel) := by
  induction fuel with
  | zero =>
    intro tree node _ _ _
    exact Or.inl ⟨trivial, rfl⟩
  | succ fuel ih =>
    intro tree node hn ht hd
    obtain ⟨ht0, htc⟩ := everywhere_iff.1 ht
    rw [insertCovered]
    split
    next h0 =>
      have hpts : ∀ p ∈ points (pushChild B tree node), p ∈ points tree ∨ p = node.index := by
        intro p hp
        rw [mem_points] at hp
        simp only [pushChild, index_setChildren, children_setChildren, h0] at hp
        rcases hp with rfl | hp
        · exact Or.inl (index_mem _)
        · obtain ⟨m, hm, hp⟩ := mem_pointsList_iff.1 hp
          simp only [List.nil_append, List.mem_singleton] at hm
          subst hm
          rw [mem_points] at hp
          simp only [index_setLevel, children_setLevel, hn, pointsList] at hp
          exact Or.inr (by simpa using hp)
      refine Sat.ok ⟨everywhere_iff.2 ⟨⟨?_, ?_, ?_, ?_⟩, ?_⟩, by simp, by simp, hpts⟩
      · simp [pushChild, h0]
      · simp [pushChild, h0]
      · intro hF p hp
        simp only [index_pushChild, level_pushChild]
        rcases hpts p hp with h | rfl
        · exact ht0.cover hF p h
        · exact hd hF
      · simp [pushChild, h0]
      · intro m hm
        simp only [pushChild, h0, children_setChildren, List.nil_append, List.mem_singleton] at hm
        subst hm
        exact inv_leaf hL (by simpa using hn)
    next c cs hcs =>
    have hlt := argMin_lt (fun x => dist node.index x.index) c cs
    have hmin := fun m => argMin_le (fun x => dist node.index x.index) c cs (m := m)
    rw [← hcs] at hlt hmin ⊢
    dsimp only
    split
    next h0 => rw [List.getElem?_eq_none_iff] at h0; omega
    next m hm =>
    have hmem := List.mem_of_getElem? hm
    have hmin := hmin m hm
    split
    next hle =>
      refine Sat.bind (ih m node hn (htc m hmem) ?_) ?_
      · intro _
        rw [ht0.levels m hmem, hL.comm]
        exact hle
      rintro m' ⟨k1, k2, k3, k4⟩
      generalize argMin (fun x => dist node.index x.index) tree.children = i at hm hlt
      have hset : ∀ b ∈ tree.children.set i m', b = m' ∨ b ∈ tree.children := fun b hb =>
        (List.mem_or_eq_of_mem_set hb).symm
      have hpts : ∀ p ∈ points (tree.setChildren (tree.children.set i m')),
          p ∈ points tree ∨ p = node.index := by
        intro p hp
        rw [mem_points] at hp
        simp only [index_setChildren, children_setChildren] at hp
        rcases hp with rfl | hp
        · exact Or.inl (index_mem _)
        · obtain ⟨b, hb, hpb⟩ := mem_pointsList_iff.1 hp
          rcases hset b hb with rfl | hb
          · rcases k4 p hpb with hp | hp
            · exact Or.inl (child_mem hmem hp)
            · exact Or.inr hp
          · exact Or.inl (child_mem hb hpb)
      refine Sat.ok ⟨everywhere_iff.2 ⟨⟨?_, ?_, ?_, ?_⟩, ?_⟩, by simp, by simp, hpts⟩
      · simp only [children_setChildren, level_setChildren]
        intro b hb
        rcases hset b hb with rfl | hb
        · rw [k3]; exact ht0.levels m hmem
        · exact ht0.levels b hb
      · simp only [children_setChildren, level_setChildren]
        have e : (tree.children.set i m').map CNode.index = tree.children.map CNode.index := by
          rw [List.map_set, k2]
          refine List.ext_getElem? fun j => ?_
          rw [List.getElem?_set]
          split
          next hij =>
            subst hij
            simp [(List.getElem?_eq_some_iff.1 hm).2, hlt]
          next => rfl
        have := ht0.apart
        rw [← List.pairwise_map (f := CNode.index)
          (R := fun a b => B.child tree.level < dist a b)] at this ⊢
        rw [e]; exact this
      · intro hF p hp
        simp only [index_setChildren, level_setChildren]
        rcases hpts p hp with h | rfl
        · exact ht0.cover hF p h
        · exact hd hF
      · simp only [children_setChildren]
        intro hF a ha b hb p hp
        have hbi : ∃ b' ∈ tree.children, b.index = b'.index := by
          rcases hset b hb with rfl | hb
          · exact ⟨m, hmem, k2⟩
          · exact ⟨b, hb, rfl⟩
        obtain ⟨b', hb', hbi⟩ := hbi
        rw [hbi]
        rcases hset a ha with rfl | ha
        · rw [k2]
          rcases k4 p hp with hp | rfl
          · exact ht0.nearest hF m hmem b' hb' p hp
          · rw [hL.comm, hL.comm b'.index]; exact hmin b' hb'
        · exact ht0.nearest hF a ha b' hb' p hp
      · simp only [children_setChildren]
        intro b hb
        rcases hset b hb with rfl | hb
        · exact k1
        · exact htc b hb
    next hgt =>
      refine rebalance_inv hL P ih fuel tree node hn ht hd ?_
      intro b hb
      exact (not_le.1 hgt).trans_le (hmin b hb)

/-- `node_to_parent` keeps the invariants if the new root covers all points. -/
theorem nodeToParent_inv (node tree : CNode L Unit) (hn : node.children = [])
    (ht : Everywhere (Inv F B dist) tree)
    (hd : F → ∀ p ∈ points tree, dist node.index p ≤ B.cover (B.up tree.level)) :
    Everywhere (Inv F B dist) (nodeToParent B node tree) := by
  refine everywhere_iff.2 ⟨⟨?_, ?_, ?_, ?_⟩, ?_⟩
  · simp [nodeToParent, hn, hL.down_up]
  · simp [nodeToParent, hn]
  · intro hF p hp
    rw [mem_points] at hp
    simp only [nodeToParent, index_setChildren, children_setChildren, index_setLevel, hn,
      level_setChildren, level_setLevel, List.nil_append, pointsList, List.append_nil] at hp ⊢
    rcases hp with rfl | hp
    · exact hL.zero hF _ _
    · exact hd hF p hp
  · simp [nodeToParent, hn]
  · simpa [nodeToParent, hn] using ht

/-- Raising the root keeps the invariants. -/
theorem raise_inv (level : L) (fuel : Nat) (tree : CNode L Unit) (h : 2 ≤ size tree)
    (ht : Everywhere (Inv F B dist) tree) :
    Sat True (raise B level fuel tree) fun r => Everywhere (Inv F B dist) r ∧ B.lt r.level level = false ∧
      ∀ p ∈ points r, p ∈ points tree := by
  induction fuel generalizing tree with
  | zero => exact Or.inl ⟨trivial, rfl⟩
  | succ fuel ih =>
    rw [raise]
    split
    next hlt =>
      have hne : tree.children ≠ [] := by
        intro h0
        have := wt_eq (fun _ => 1) tree
        rw [h0] at this
        simp only [size, wtL_nil] at *
        omega
      obtain ⟨leaf, t', h1, h2, h3, h4, h5⟩ := removeLeaf_spec tree hne
      obtain ⟨leaf', t'', k1, k2, k3, k4⟩ := removeLeaf_inv hL.comm tree hne ht
      rw [h1] at k1 ⊢
      cases k1
      have hcov := (everywhere_iff.1 ht).1.cover
      have hinv : Everywhere (Inv F B dist) (nodeToParent B leaf t') := by
        refine nodeToParent_inv hL leaf t' h2 k3 ?_
        intro hF p hp
        rw [h3]
        refine (hL.triangle hF leaf.index tree.index p).trans (le_trans ?_ (hL.up hF tree.level))
        rw [hL.comm leaf.index]
        exact hL.add_le hF _ _ _ _ (hcov hF _ k2) (hcov hF p (k4.sub p hp))
      have hw : ∀ w, wt w (nodeToParent B leaf t') = wt w tree := fun w => by
        rw [wt_nodeToParent]; exact h5 w
      refine (ih _ (by simp only [size] at h ⊢; rw [hw]; exact h) hinv).imp ?_
      rintro r ⟨j1, j2, j3⟩
      refine ⟨j1, j2, fun p hp => ?_⟩
      have hp := j3 p hp
      rw [mem_points] at hp
      simp only [nodeToParent, index_setChildren, children_setChildren, index_setLevel, h2,
        List.nil_append, pointsList, List.append_nil] at hp
      rcases hp with rfl | hp
      · exact k2
      · exact k4.sub p hp
    next hlt => exact Sat.ok ⟨ht, by simpa using hlt, fun p hp => hp⟩

/-- `insert` keeps the invariants. -/
theorem insert_inv (fuel : Nat) (tree node : CNode L Unit) (hn : node.children = []) (h : 2 ≤ size tree)
    (ht : Everywhere (Inv F B dist) tree) :
    Sat True (insert B P dist fuel tree node) fun r => Everywhere (Inv F B dist) r := by
  rw [insert]
  split
  next hd =>
    refine Sat.bind (raise_inv hL _ fuel tree h ht) ?_
    rintro r ⟨h1, h2, h3⟩
    refine Sat.ok (nodeToParent_inv hL node r hn h1 ?_)
    intro hF p hp
    refine le_trans ?_ (hL.floor hF _ _ h2)
    refine (hL.triangle hF node.index tree.index p).trans ?_
    refine le_trans (hL.add_le hF _ _ _ _ le_rfl ((everywhere_iff.1 ht).1.cover hF p (h3 p hp))) ?_
    exact hL.swap hF _ _
  next hd =>
    refine (insertCovered_inv hL P fuel tree node hn ht ?_).imp fun r hr => hr.1
    intro _
    rw [hL.comm]
    exact not_lt.1 hd

/-- The invariants hold after all insertions. -/
theorem insertAll_inv (fuel : Nat) (indices : List Nat) (h : indices ≠ []) :
    Sat True (insertAll B P dist fuel indices) fun t => Everywhere (Inv F B dist) t := by
  match indices, h with
  | [i], _ =>
    refine Or.inr ⟨.node i B.zero () [], ?_, inv_leaf hL rfl⟩
    simp [insertAll, insertFirstTwo, createNode, bufferAllocate, Outcome.bind, Outcome.foldl, CNode.setLevel]
  | i :: j :: rest, _ =>
    rw [insertAll_two]
    refine Sat.bind (insertLoop_spec B P dist True fuel _ (Everywhere (Inv F B dist)) rest _ 2 (by simp; omega)
      (by simp [size]) ?_ ?_) ?_
    · refine everywhere_iff.2 ⟨⟨?_, ?_, ?_, ?_⟩, ?_⟩
      · simp [CNode.children, CNode.level]
      · simp [CNode.children]
      · intro hF p hp
        simp only [points, pointsList, List.append_nil, List.mem_cons, List.not_mem_nil, or_false] at hp
        simp only [CNode.index, CNode.level]
        rcases hp with rfl | rfl
        · exact hL.zero hF _ _
        · exact hL.ceil hF _ _
      · simp [CNode.children]
      · intro m hm
        simp only [CNode.children, List.mem_singleton] at hm
        subst hm
        exact inv_leaf hL rfl
    · intro tree k _ h2 hQ
      refine Sat.and (insert_inv hL P fuel tree (.node k B.unset () []) rfl h2 hQ)
        ((insert_spec B P dist True fuel tree (.node k B.unset () []) rfl h2 (Or.inl trivial)).imp ?_)
      rintro r ⟨-, h3, -⟩
      exact fun w => by rw [h3]; simp
    · rintro st ⟨h1, -, -⟩
      exact Sat.ok h1

omit hL [Add α] in
mutual
theorem updateMaxDistance_inv : ∀ t : CNode L Unit, Everywhere (Inv F B dist) t →
    Everywhere (Inv F B dist) (updateMaxDistance dist t) ∧ (updateMaxDistance dist t).index = t.index ∧
      (updateMaxDistance dist t).level = t.level
  | .node i l m cs, h => by
    obtain ⟨h1, h2⟩ := everywhere_iff.1 h
    have hcs := updateMaxDistanceList_inv cs h2
    refine ⟨?_, rfl, rfl⟩
    rw [updateMaxDistance]
    have hm : ∀ a ∈ updateMaxDistanceList dist cs, ∃ b ∈ cs, _ := fun a ha => forall₂_mem hcs ha
    refine everywhere_iff.2 ⟨⟨?_, ?_, ?_, ?_⟩, ?_⟩
    · intro a ha
      obtain ⟨b, hb, -, -, h3, -⟩ := hm a ha
      rw [h3]
      exact h1.levels b hb
    · refine forall₂_pairwise hcs h1.apart ?_
      rintro a b a' b' ⟨-, ha, -⟩ ⟨-, hb, -⟩ hab
      rw [ha, hb]
      exact hab
    · intro hF p hp
      refine h1.cover hF p ?_
      rw [points] at hp ⊢
      rwa [points_updateMaxDistanceList] at hp
    · intro hF a ha b hb p hp
      obtain ⟨a', ha', -, h2, -, h4⟩ := hm a ha
      obtain ⟨b', hb', -, h3, -, -⟩ := hm b hb
      rw [h2, h3]
      exact h1.nearest hF a' ha' b' hb' p (h4 ▸ hp)
    · intro a ha
      obtain ⟨b, hb, h3, -⟩ := hm a ha
      exact h3

theorem updateMaxDistanceList_inv : ∀ cs : List (CNode L Unit), (∀ c ∈ cs, Everywhere (Inv F B dist) c) →
    List.Forall₂ (fun a b => Everywhere (Inv F B dist) a ∧ a.index = b.index ∧ a.level = b.level ∧
      points a = points b) (updateMaxDistanceList dist cs) cs
  | [], _ => by rw [updateMaxDistanceList]; exact List.Forall₂.nil
  | c :: cs, h => by
    rw [updateMaxDistanceList]
    have := updateMaxDistance_inv c (h c (by simp))
    exact List.Forall₂.cons ⟨this.1, this.2.1, this.2.2, points_updateMaxDistance dist c⟩
      (updateMaxDistanceList_inv cs fun m hm => h m (by simp [hm]))
end

/-- The invariants hold in a finished build. -/
theorem build_inv (fuel : Nat) (indices : List Nat) (hne : indices ≠ []) :
    Sat True (build B P dist fuel indices) fun t => Everywhere (Inv F B dist) t := by
  rw [build]
  refine Sat.bind (Sat.and (insertAll_inv hL P fuel indices hne) (insertAll_points B P dist fuel indices hne))
    fun t ht => ?_
  rw [bufferCopy_ok _ t 0 (by rw [size_eq_length, ht.2.length_eq]; omega)]
  exact Sat.ok (updateMaxDistance_inv t ht.1).1

end

end Cover

end Pico
