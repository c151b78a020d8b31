import Verif.Model.ForestMem
import Verif.Model.ForestOrder
import Verif.Proof.Walk
import Verif.Proof.ForestSearch
import Verif.Props.Matrix
import Verif.Props.Reads
import Mathlib.SetTheory.Cardinal.Order
import Mathlib.Data.Prod.Lex

/-!
# Forests in memory: rotations with checked reads, and the priority search through pointers
-/

set_option linter.unusedSectionVars false

namespace Pico

open Spec

/-! ## Rotations -/

section Rotation
variable {α : Type} [Zero α] [One α] [Add α] [Sub α] [Mul α] {d : Nat}

/-- A new point: `from_size(sdim)`. -/
theorem rotateQuery_eq (r v : Pt α d) (q : List α) (hq : ∀ j : Fin d, q[j.1]? = some (v j)) :
    rotateQuery r q = .ok (List.ofFn (rotatePoint r v)) := by
  obtain ⟨y, h1, h2, h3, -⟩ := Props.rotateInto_spec (read := fun _ j => q[j.1]?) (r := r) (py := 0) (fun _ _ _ _ _ => rfl) v
    (List.replicate d 0) hq (by simp)
  unfold rotateQuery
  rw [h1]
  refine congrArg Outcome.ok (List.ext_getElem? fun i => ?_)
  by_cases hi : i < d
  · have := h3 ⟨i, hi⟩
    simp only [Nat.zero_add] at this
    rw [this]
    simp [hi]
  · rw [List.getElem?_eq_none (by rw [h2]; simpa using hi), List.getElem?_eq_none (by simpa using hi)]

/-- A query that is too short. -/
theorem rotateQuery_ub (r : Pt α d) (q : List α) (hq : q.length < d) : rotateQuery r q = .ub := by
  have : ∀ (l : List (Fin d)), (⟨q.length, hq⟩ : Fin d) ∈ l → ∀ acc : α,
      l.foldlM (fun dot i => (q[i.1]?).map fun x => dot + r i * x) acc = none := by
    intro l
    induction l with
    | nil => simp
    | cons i l ih =>
      intro hm acc
      rw [List.foldlM_cons]
      cases hx : q[i.1]? with
      | none => rfl
      | some x =>
        rcases List.mem_cons.1 hm with h | h
        · subst h
          simp at hx
        · exact ih h _
  unfold rotateQuery rotateInto rotateDot
  rw [this _ (List.mem_finRange _)]
  rfl

theorem rotateSpace_elems [LinearOrder α] [Neg α] (r : Pt α d) (pts : Nat → Pt α d) (n : Nat) :
    ∃ s, rotateSpace r pts n = some s ∧
      s.elems = (List.range n).flatMap fun i => List.ofFn (rotatePoint r (pts i)) := by
  obtain ⟨s, h1, -, h3, h4, h5⟩ := Props.c88_space r pts n
  refine ⟨s, h1, List.ext_getElem? fun p => ?_⟩
  have hl : ((List.range n).flatMap fun i => List.ofFn (rotatePoint r (pts i))).length = n * d := by
    rw [List.length_flatMap]
    simp
  by_cases hp : p < n * d
  · have hd : 0 < d := Nat.pos_of_ne_zero fun h => by simp [h] at hp
    have hi : p / d < n := Nat.div_lt_of_lt_mul (by rwa [Nat.mul_comm] at hp)
    have hj : p % d < d := Nat.mod_lt _ hd
    have e : p / d * d + p % d = p := by rw [Nat.mul_comm]; exact Nat.div_add_mod p d
    have a1 := h5 (p / d) hi ⟨p % d, hj⟩
    have a2 := Props.holds_map (fun i => rotatePoint r (pts i)) n (p / d) hi ⟨p % d, hj⟩
    simp only [MatrixSpace.coord, MatrixSpace.data, h3, e] at a1
    simp only [mapSpace, e] at a2
    rw [a1]
    rw [rd_of_lt (by rw [hl]; exact hp)] at a2
    injection a2 with a2
    rw [List.getElem?_eq_getElem (by rw [hl]; exact hp), a2]
  · rw [List.getElem?_eq_none (by omega), List.getElem?_eq_none (by rw [hl]; omega)]

end Rotation

/-! ## Pointers and subtrees -/

section Pointers
variable {β : Type} {mem : Ptr → Option (Node β)}

theorem Repr.unique {p : Ptr} {t t' : Tree β} {f f' : List Ptr} (h : Repr mem p t f) (h' : Repr mem p t' f') :
    t = t' := by
  induction h generalizing t' f' with
  | leaf h =>
    cases h' with
    | leaf h2 => rw [h] at h2; cases h2; rfl
    | branch h2 _ _ => rw [h] at h2; cases h2
  | branch h _ _ ih1 ih2 =>
    cases h' with
    | leaf h2 => rw [h] at h2; cases h2
    | branch h2 h3 h4 =>
      rw [h] at h2
      cases h2
      rw [ih1 h3, ih2 h4]

/-- Every node of a tree is the root of a part of it. -/
theorem Repr.part {p q : Ptr} {t : Tree β} {f : List Ptr} (h : Repr mem p t f) (hq : q ∈ f) :
    ∃ t' f', Repr mem q t' f' ∧ f' ⊆ f ∧ nodes t' ≤ nodes t ∧ ranges t' ⊆ ranges t := by
  induction h with
  | leaf h =>
    rw [List.mem_singleton] at hq
    subst hq
    exact ⟨_, _, .leaf h, List.Subset.refl _, le_rfl, List.Subset.refl _⟩
  | branch h hl hr ih1 ih2 =>
    rcases List.mem_cons.1 hq with rfl | hq
    · exact ⟨_, _, .branch h hl hr, List.Subset.refl _, le_rfl, List.Subset.refl _⟩
    rcases List.mem_append.1 hq with hq | hq
    · obtain ⟨t', f', h1, h2, h3, h4⟩ := ih1 hq
      refine ⟨t', f', h1, fun x hx => by simp [h2 hx], by simp only [nodes]; omega, fun x hx => ?_⟩
      rw [ranges_branch]
      exact List.mem_append_left _ (h4 hx)
    · obtain ⟨t', f', h1, h2, h3, h4⟩ := ih2 hq
      refine ⟨t', f', h1, fun x hx => by simp [h2 hx], by simp only [nodes]; omega, fun x hx => ?_⟩
      rw [ranges_branch]
      exact List.mem_append_right _ (h4 hx)

theorem ranges_ne_nil (t : Tree β) : ranges t ≠ [] := by
  induction t with
  | leaf b e => simp [ranges_leaf]
  | branch data l r ih1 ih2 => rw [ranges_branch]; simp [ih1]

/-- Different nodes of a tree without empty leaves have different parts. -/
theorem Repr.inj {p p1 p2 : Ptr} {t t' : Tree β} {f f1 f2 : List Ptr} (h : Repr mem p t f) (hn : (ranges t).Nodup)
    (h1 : p1 ∈ f) (h2 : p2 ∈ f) (r1 : Repr mem p1 t' f1) (r2 : Repr mem p2 t' f2) : p1 = p2 := by
  induction h with
  | leaf h =>
    rw [List.mem_singleton] at h1 h2
    rw [h1, h2]
  | @branch p l r data tl tr fl fr h hl hr ih1 ih2 =>
    rw [ranges_branch] at hn
    obtain ⟨n1, n2, n3⟩ := List.nodup_append'.1 hn
    have top : ∀ {q q' : Ptr} {g g' : List Ptr}, q = p → q' ∈ fl ++ fr → Repr mem q t' g → Repr mem q' t' g' → False := by
      rintro q q' g g' rfl hq hg hg'
      have e := (Repr.branch h hl hr).unique hg
      subst e
      rcases List.mem_append.1 hq with hq | hq
      · obtain ⟨t2, f2, a1, -, a2, -⟩ := hl.part hq
        rw [← hg'.unique a1] at a2
        simp only [nodes] at a2
        omega
      · obtain ⟨t2, f2, a1, -, a2, -⟩ := hr.part hq
        rw [← hg'.unique a1] at a2
        simp only [nodes] at a2
        omega
    have cross : ∀ {q q' : Ptr} {g g' : List Ptr}, q ∈ fl → q' ∈ fr → Repr mem q t' g → Repr mem q' t' g' → False := by
      intro q q' g g' hq hq' hg hg'
      obtain ⟨t2, f2, a1, -, -, a2⟩ := hl.part hq
      obtain ⟨t3, f3, b1, -, -, b2⟩ := hr.part hq'
      rw [← hg.unique a1] at a2
      rw [← hg'.unique b1] at b2
      obtain ⟨x, hx⟩ := List.exists_mem_of_ne_nil _ (ranges_ne_nil t')
      exact n3 (a2 hx) (b2 hx)
    rcases List.mem_cons.1 h1 with e1 | h1
    · rcases List.mem_cons.1 h2 with e2 | h2
      · rw [e1, e2]
      · exact (top e1 h2 r1 r2).elim
    · rcases List.mem_cons.1 h2 with e2 | h2
      · exact (top e2 h1 r2 r1).elim
      · rcases List.mem_append.1 h1 with h1 | h1 <;> rcases List.mem_append.1 h2 with h2 | h2
        · exact ih1 n1 h1 h2
        · exact (cross h1 h2 r1 r2).elim
        · exact (cross h2 h1 r2 r1).elim
        · exact ih2 n2 h1 h2

theorem tiles_nodup {a b : Nat} {l : List (Nat × Nat)} (h : Tiles a l b) (hne : ∀ r ∈ l, r.1 < r.2) : l.Nodup := by
  have low : ∀ {l : List (Nat × Nat)} {a b : Nat}, Tiles a l b → ∀ r ∈ l, a ≤ r.1 := by
    intro l
    induction l with
    | nil => simp
    | cons x l ih =>
      obtain ⟨x, y⟩ := x
      rintro a b ⟨h1, h2, h3⟩ r hr
      rcases List.mem_cons.1 hr with rfl | hr
      · exact h1.ge
      · have := ih h3 r hr
        omega
  induction l generalizing a with
  | nil => simp
  | cons x l ih =>
    obtain ⟨x, y⟩ := x
    obtain ⟨h1, h2, h3⟩ := h
    refine List.nodup_cons.2 ⟨fun hm => ?_, ih h3 fun r hr => hne r (by simp [hr])⟩
    have := low h3 _ hm
    have := hne (x, y) (by simp)
    simp only at *
    omega

/-- The parts of the tree below the nodes `f`. -/
def PartOf (mem : Ptr → Option (Node β)) (f : List Ptr) (t : Tree β) : Prop := ∃ p f', Repr mem p t f' ∧ f' ⊆ f

open Classical in
/-- The node that is a part. -/
noncomputable def ptrOf (mem : Ptr → Option (Node β)) (f : List Ptr) (t : Tree β) : Ptr :=
  if h : PartOf mem f t then h.choose else (0, 0)

theorem ptrOf_spec {f : List Ptr} {t : Tree β} (h : PartOf mem f t) :
    ∃ f', Repr mem (ptrOf mem f t) t f' ∧ f' ⊆ f := by
  unfold ptrOf
  rw [dif_pos h]
  exact h.choose_spec

theorem ptrOf_eq {p q : Ptr} {t t' : Tree β} {f f' : List Ptr} (h : Repr mem p t f) (hn : (ranges t).Nodup)
    (h' : Repr mem q t' f') (hf : f' ⊆ f) : ptrOf mem f t' = q := by
  obtain ⟨g, h1, h2⟩ := ptrOf_spec (⟨q, f', h', hf⟩ : PartOf mem f t')
  exact h.inj hn (h2 h1.head_mem) (hf h'.head_mem) h1 h'

end Pointers

/-! ## A queue of nodes is a queue of trees -/

section Queue
variable {α τ υ : Type} [LinearOrder α]

theorem exists_least {X κ : Type} [LinearOrder κ] (g : X → κ) {l : List X} (h : l ≠ []) :
    ∃ y ∈ l, ∀ z ∈ l, g y ≤ g z := by
  induction l with
  | nil => exact absurd rfl h
  | cons x l ih =>
    by_cases hl : l = []
    · subst hl
      exact ⟨x, by simp, by simp⟩
    · obtain ⟨y, h1, h2⟩ := ih hl
      rcases le_total (g x) (g y) with hx | hx
      · refine ⟨x, by simp, fun z hz => ?_⟩
        rcases List.mem_cons.1 hz with rfl | hz
        exacts [le_rfl, hx.trans (h2 z hz)]
      · refine ⟨y, by simp [h1], fun z hz => ?_⟩
        rcases List.mem_cons.1 hz with rfl | hz
        exacts [hx, h2 z hz]

/-- The order of `Q`. -/
def StdQueue.By (Q : StdQueue α υ) (before : α × υ → α × υ → Prop) : Prop :=
  (∀ x y, before x y → before y x → x = y) ∧ ∀ l y r, Q.pop l = some (y, r) → ∀ z ∈ r, before y z

open Classical in
/-- The order of a queue of things some of which have a code: two of these as their codes, other pairs as it pleases. -/
def liftBefore (In : τ → Prop) (enc : τ → υ) (R : α × τ → α × τ → Prop) (before : α × υ → α × υ → Prop)
    (x y : α × τ) : Prop :=
  if In x.2 then (if In y.2 then before (x.1, enc x.2) (y.1, enc y.2) else x.1 ≤ y.1)
  else (if In y.2 then x.1 < y.1 else R x y)

open Classical in
theorem StdQueue.pull (Q : StdQueue α υ) (In : τ → Prop) (enc : τ → υ)
    (inj : ∀ x y, In x → In y → enc x = enc y → x = y) :
    ∃ Q' : StdQueue α τ, (Q.Ordered → Q'.Ordered) ∧ ∀ l, (∀ x ∈ l, In x.2) →
      (Q'.pop l = none ∧ Q.pop (l.map fun x => (x.1, enc x.2)) = none) ∨
      ∃ y r, Q'.pop l = some (y, r) ∧ (y :: r).Perm l ∧
        Q.pop (l.map fun x => (x.1, enc x.2)) = some ((y.1, enc y.2), r.map fun x => (x.1, enc x.2)) := by
  letI : LinearOrder τ := linearOrderOfSTO (WellOrderingRel : τ → τ → Prop)
  let e : α × τ → α × υ := fun x => (x.1, enc x.2)
  let R : α × τ → α × τ → Prop := fun x y => toLex x ≤ toLex y
  have Rkey : ∀ x y, R x y → x.1 ≤ y.1 := fun x y h => by
    rcases Prod.Lex.toLex_le_toLex.1 h with h | h
    exacts [h.le, h.1.le]
  -- the queue on things with a code
  have coded : ∀ A : List (α × τ), A ≠ [] → ∃ y r, (y :: r).Perm A ∧ Q.pop (A.map e) = some (e y, r.map e) ∧
      (∀ z ∈ r, y.1 ≤ z.1) := by
    intro A hA
    obtain ⟨x, A', rfl⟩ := List.exists_cons_of_ne_nil hA
    obtain ⟨y, r, h1, h2, h3⟩ := Q.top (e x) (A'.map e)
    have h4 : List.Forall₂ (fun a b => a = e b) ((x :: A').map e) (x :: A') := by
      rw [List.forall₂_map_left_iff]
      exact List.forall₂_same.2 fun _ _ => rfl
    obtain ⟨w, h5, h6⟩ := List.perm_comp_forall₂ h2 h4
    obtain ⟨y', r', h7, h8, rfl⟩ := List.forall₂_cons_left_iff.1 h5
    have h9 : r = r'.map e := by
      clear h1 h2 h3 h5 h6
      induction h8 with
      | nil => rfl
      | cons h _ ih => rw [h, ih, List.map_cons]
    refine ⟨y', r', h6, by rw [← h7, ← h9]; exact h1, fun z hz => ?_⟩
    have := h3 (e z) (by rw [h9]; exact List.mem_map_of_mem hz)
    rw [h7] at this
    exact this
  have all : ∀ l : List (α × τ), ∃ o : Option ((α × τ) × List (α × τ)), (l = [] → o = none) ∧
      (l ≠ [] → ∃ y r, o = some (y, r) ∧ (y :: r).Perm l ∧ (∀ z ∈ r, y.1 ≤ z.1) ∧
        (∀ before, Q.By before → ∀ z ∈ r, liftBefore In enc R before y z) ∧
        ((∀ x ∈ l, In x.2) → Q.pop (l.map e) = some (e y, r.map e))) := by
    intro l
    by_cases hl : l = []
    · exact ⟨none, fun _ => rfl, fun h => absurd hl h⟩
    let A := l.filter fun x => In x.2
    let B := l.filter fun x => ¬ In x.2
    have hAB : (A ++ B).Perm l := by
      have := List.filter_append_perm (fun x : α × τ => decide (In x.2)) l
      simpa [A, B] using this
    have hA : ∀ x ∈ A, In x.2 := fun x hx => by simpa using (List.mem_filter.1 hx).2
    have hB : ∀ x ∈ B, ¬ In x.2 := fun x hx => by simpa using (List.mem_filter.1 hx).2
    have allIn : (∀ x ∈ l, In x.2) → A = l ∧ B = [] := fun h => by
      constructor
      · exact List.filter_eq_self.2 fun x hx => by simpa using h x hx
      · exact List.filter_eq_nil_iff.2 fun x hx => by simpa using h x hx
    -- the smallest thing without a code
    have other : B ≠ [] → ∃ y r, (y :: r).Perm B ∧ ∀ z ∈ r, R y z := fun h => by
      obtain ⟨y, h1, h2⟩ := exists_least (fun x : α × τ => toLex x) h
      exact ⟨y, B.erase y, (List.perm_cons_erase h1).symm, fun z hz => h2 z (List.mem_of_mem_erase hz)⟩
    have takeA : ∀ y r, (y :: r).Perm A → Q.pop (A.map e) = some (e y, r.map e) → (∀ z ∈ r, y.1 ≤ z.1) →
        (∀ z ∈ B, y.1 ≤ z.1) → ∃ o : Option ((α × τ) × List (α × τ)), (l = [] → o = none) ∧
      (l ≠ [] → ∃ y r, o = some (y, r) ∧ (y :: r).Perm l ∧ (∀ z ∈ r, y.1 ≤ z.1) ∧
        (∀ before, Q.By before → ∀ z ∈ r, liftBefore In enc R before y z) ∧
        ((∀ x ∈ l, In x.2) → Q.pop (l.map e) = some (e y, r.map e))) := by
      intro y r h1 h2 h3 h4
      have hy : In y.2 := hA y (h1.subset (by simp))
      refine ⟨some (y, r ++ B), fun h => absurd h hl, fun _ => ⟨y, r ++ B, rfl, ?_, ?_, ?_, ?_⟩⟩
      · rw [← List.cons_append]
        exact (h1.append_right B).trans hAB
      · intro z hz
        rcases List.mem_append.1 hz with hz | hz
        exacts [h3 z hz, h4 z hz]
      · intro before hb z hz
        unfold liftBefore
        rw [if_pos hy]
        rcases List.mem_append.1 hz with hz | hz
        · rw [if_pos (hA z (h1.subset (by simp [hz])))]
          exact hb.2 _ _ _ h2 (e z) (List.mem_map_of_mem hz)
        · rw [if_neg (hB z hz)]
          exact h4 z hz
      · intro h
        obtain ⟨h5, h6⟩ := allIn h
        rw [h5] at h2
        rw [h6, List.append_nil]
        exact h2
    by_cases hB0 : B = []
    · have hA0 : A ≠ [] := fun h => by
        rw [h, hB0] at hAB
        exact hl hAB.nil_eq.symm
      obtain ⟨y, r, h1, h2, h3⟩ := coded A hA0
      exact takeA y r h1 h2 h3 (by rw [hB0]; simp)
    obtain ⟨yB, rB, hb1, hb2⟩ := other hB0
    have takeB : (∀ z ∈ A, yB.1 < z.1) → ∃ o : Option ((α × τ) × List (α × τ)), (l = [] → o = none) ∧
      (l ≠ [] → ∃ y r, o = some (y, r) ∧ (y :: r).Perm l ∧ (∀ z ∈ r, y.1 ≤ z.1) ∧
        (∀ before, Q.By before → ∀ z ∈ r, liftBefore In enc R before y z) ∧
        ((∀ x ∈ l, In x.2) → Q.pop (l.map e) = some (e y, r.map e))) := by
      intro h4
      have hy : ¬ In yB.2 := hB yB (hb1.subset (by simp))
      refine ⟨some (yB, A ++ rB), fun h => absurd h hl, fun _ => ⟨yB, A ++ rB, rfl, ?_, ?_, ?_, ?_⟩⟩
      · exact List.perm_middle.symm.trans ((hb1.append_left A).trans hAB)
      · intro z hz
        rcases List.mem_append.1 hz with hz | hz
        exacts [(h4 z hz).le, Rkey _ _ (hb2 z hz)]
      · intro before hb z hz
        unfold liftBefore
        rw [if_neg hy]
        rcases List.mem_append.1 hz with hz | hz
        · rw [if_pos (hA z hz)]
          exact h4 z hz
        · rw [if_neg (hB z (hb1.subset (by simp [hz])))]
          exact hb2 z hz
      · intro h
        exact absurd (allIn h).2 hB0
    by_cases hA0 : A = []
    · exact takeB (by rw [hA0]; simp)
    obtain ⟨yA, rA, h1, h2, h3⟩ := coded A hA0
    have minB : ∀ z ∈ B, yB.1 ≤ z.1 := fun z hz => by
      rcases List.mem_cons.1 (hb1.symm.subset hz) with rfl | hz
      exacts [le_rfl, Rkey _ _ (hb2 z hz)]
    have minA : ∀ z ∈ A, yA.1 ≤ z.1 := fun z hz => by
      rcases List.mem_cons.1 (h1.symm.subset hz) with rfl | hz
      exacts [le_rfl, h3 z hz]
    rcases le_or_gt yA.1 yB.1 with hle | hlt
    · exact takeA yA rA h1 h2 h3 fun z hz => hle.trans (minB z hz)
    · exact takeB fun z hz => hlt.trans_le (minA z hz)
  choose pop hp1 hp2 using all
  refine ⟨⟨pop, hp1 [] rfl, fun x l => ?_⟩, ?_, fun l hl => ?_⟩
  · obtain ⟨y, r, h1, h2, h3, -⟩ := hp2 (x :: l) (by simp)
    exact ⟨y, r, h1, h2, h3⟩
  · rintro ⟨before, hb⟩
    refine ⟨liftBefore In enc R before, fun x y h1 h2 => ?_, fun l y r h z hz => ?_⟩
    · unfold liftBefore at h1 h2
      by_cases hx : In x.2 <;> by_cases hy : In y.2
      · rw [if_pos hx, if_pos hy] at h1
        rw [if_pos hy, if_pos hx] at h2
        have := hb.1 _ _ h1 h2
        rw [Prod.mk.injEq] at this
        exact Prod.ext this.1 (inj _ _ hx hy this.2)
      · rw [if_pos hx, if_neg hy] at h1
        rw [if_neg hy, if_pos hx] at h2
        exact absurd h1 (not_le.2 h2)
      · rw [if_neg hx, if_pos hy] at h1
        rw [if_pos hy, if_neg hx] at h2
        exact absurd h2 (not_le.2 h1)
      · rw [if_neg hx, if_neg hy] at h1
        rw [if_neg hy, if_neg hx] at h2
        exact toLex.injective (le_antisymm h1 h2)
    · by_cases hl : l = []
      · have := hp1 l hl
        simp only at h
        rw [this] at h
        cases h
      · obtain ⟨y', r', h1, -, -, h4, -⟩ := hp2 l hl
        simp only at h
        rw [h1] at h
        injection h with h
        rw [Prod.mk.injEq] at h
        obtain ⟨rfl, rfl⟩ := h
        exact h4 before hb z hz
  · by_cases h0 : l = []
    · subst h0
      exact .inl ⟨hp1 [] rfl, Q.empty⟩
    · obtain ⟨y, r, h1, h2, -, -, h5⟩ := hp2 l h0
      exact .inr ⟨y, r, h1, h2, h5 hl⟩

end Queue

/-! ## The search from node to node is the search of the tree -/

section Search
variable {α : Type} [LinearOrder α] [Zero α] [Add α] [Sub α] {d : Nat} {σ : Type}
variable {mem : Ptr → Option (Node (Branch2 α d))} {I : IterMetric α} {M : Metric α d} {V : Visitor α σ} {q : Reader α}
  {x : Pt α d} {dist : Nat → Outcome α} {dist' : Nat → α} {indices : List Nat} {root : Ptr} {t : Tree (Branch2 α d)}
  {f : List Ptr}

theorem pickPriorityC_eq (hI : ∀ v, I.one v = M.one v) (x : Pt α d) (b : Branch2 α d) :
    pickPriorityC I (x b.splitDim) b = pickPriority M x b := by
  simp only [pickPriorityC, pickPriority, hI]

/-- A part of the tree `t` with the nodes `f`. -/
structure WithinTree (mem : Ptr → Option (Node (Branch2 α d))) (t : Tree (Branch2 α d)) (f : List Ptr)
    (t' : Tree (Branch2 α d)) : Prop where
  part : PartOf mem f t'
  height : height t' ≤ height t
  ranges : ranges t' ⊆ ranges t

theorem WithinTree.children {p l r : Ptr} {data : Branch2 α d} {tl tr : Tree (Branch2 α d)} {fl fr f' : List Ptr}
    (h : WithinTree mem t f (.branch data tl tr)) (hl : Repr mem l tl fl) (hr : Repr mem r tr fr)
    (hf : f' = p :: (fl ++ fr)) (hs : f' ⊆ f) : WithinTree mem t f tl ∧ WithinTree mem t f tr := by
  subst hf
  have h1 := h.height
  have h2 := h.ranges
  rw [ranges_branch] at h2
  simp only [Spec.height] at h1
  exact ⟨⟨⟨l, fl, hl, fun x hx => hs (by simp [hx])⟩, by omega, fun x hx => h2 (List.mem_append_left _ hx)⟩,
    ⟨⟨r, fr, hr, fun x hx => hs (by simp [hx])⟩, by omega, fun x hx => h2 (List.mem_append_right _ hx)⟩⟩

/-- An element of the queue of pointers. -/
noncomputable def toPtrs (mem : Ptr → Option (Node (Branch2 α d))) (f : List Ptr) (y : α × Tree (Branch2 α d)) :
    α × Option Ptr := (y.1, some (ptrOf mem f y.2))

theorem priorityDescendP_eq (hroot : Repr mem root t f) (hn : (ranges t).Nodup)
    (hr : ∀ r ∈ ranges t, r.1 ≤ indices.length ∧ r.2 ≤ indices.length) (hq : ∀ j : Fin d, q j = .ok (x j))
    (hd : ∀ i ∈ indices, dist i = .ok (dist' i)) (hI : ∀ v, I.one v = M.one v) {p : Ptr} {t' : Tree (Branch2 α d)}
    {f' : List Ptr} (h : Repr mem p t' f') (hf : f' ⊆ f) (hw : WithinTree mem t f t') {depth : Nat}
    (hh : height t' < depth) (D : α) (st : σ × List (α × Tree (Branch2 α d))) (hst : ∀ y ∈ st.2, WithinTree mem t f y.2) :
    priorityDescendP mem I V q dist indices depth (some p) D (st.1, st.2.map (toPtrs mem f)) =
        .ok ((priorityDescend M x V dist' indices t' D st).1,
          (priorityDescend M x V dist' indices t' D st).2.map (toPtrs mem f)) ∧
      ∀ y ∈ (priorityDescend M x V dist' indices t' D st).2, WithinTree mem t f y.2 := by
  induction h generalizing depth D st with
  | @leaf p b e h =>
    obtain ⟨depth, rfl⟩ : ∃ k, depth = k + 1 := ⟨depth - 1, by omega⟩
    obtain ⟨h1, h2⟩ := hr (b, e) (hw.ranges (by simp [ranges_leaf]))
    have hv := visitAllC_eq V (dist := dist) (dist' := dist') (l := slice indices b e)
      (fun i hi => hd i (mem_slice_reads hi)) st.1
    refine ⟨?_, hst⟩
    simp only [priorityDescendP, derefNode_ok h, Outcome.bind_ok, Node.isLeaf, Option.isNone_none, Bool.and_self,
      if_true, Node.asLeaf, sliceC_ok h1 h2, hv, priorityDescend]
  | @branch p l r data tl tr fl fr h hl hrr ih1 ih2 =>
    obtain ⟨depth, rfl⟩ : ∃ k, depth = k + 1 := ⟨depth - 1, by omega⟩
    simp only [Spec.height] at hh
    obtain ⟨w1, w2⟩ := hw.children hl hrr rfl hf
    have sl : fl ⊆ f := fun z hz => hf (by simp [hz])
    have sr : fr ⊆ f := fun z hz => hf (by simp [hz])
    obtain ⟨a1, a2⟩ := ih1 (depth := depth) sl w1 (by omega) D st hst
    obtain ⟨b1, b2⟩ := ih2 (depth := depth) sr w2 (by omega) D st hst
    have el : ptrOf mem f tl = l := ptrOf_eq hroot hn hl sl
    have er : ptrOf mem f tr = r := ptrOf_eq hroot hn hrr sr
    simp only [priorityDescendP, derefNode_ok h, Outcome.bind_ok, Node.isLeaf, Option.isNone_some, Bool.and_self,
      Bool.false_eq_true, if_false, Node.asBranch, hq, pickPriorityC_eq hI, priorityDescend]
    cases hp : (pickPriority M x data).1
    · simp only [hp, Bool.false_eq_true, if_false, b1, Outcome.bind_ok]
      split_ifs with hm
      · refine ⟨by simp [toPtrs, el], fun y hy => ?_⟩
        rcases List.mem_cons.1 hy with rfl | hy
        exacts [w1, b2 y hy]
      · exact ⟨rfl, b2⟩
    · simp only [hp, if_true, a1, Outcome.bind_ok]
      split_ifs with hm
      · refine ⟨by simp [toPtrs, er], fun y hy => ?_⟩
        rcases List.mem_cons.1 hy with rfl | hy
        exacts [w2, a2 y hy]
      · exact ⟨rfl, a2⟩

/-- The queue of nodes of one tree in memory is a queue of parts of that tree. -/
theorem prioritySearchP_eq (hroot : Repr mem root t f) (hn : (ranges t).Nodup) (Q : StdQueue α (Option Ptr)) :
    ∃ Q' : StdQueue α (Tree (Branch2 α d)), (Q.Ordered → Q'.Ordered) ∧
      ∀ (indices : List Nat) (_ : ∀ r ∈ ranges t, r.1 ≤ indices.length ∧ r.2 ≤ indices.length) {σ : Type} (I : IterMetric α)
        (M : Metric α d) (V : Visitor α σ) (q : Reader α) (x : Pt α d) (dist : Nat → Outcome α) (dist' : Nat → α)
        (_ : ∀ j : Fin d, q j = .ok (x j)) (_ : ∀ i ∈ indices, dist i = .ok (dist' i)) (_ : ∀ v, I.one v = M.one v)
        (depth : Nat) (_ : height t < depth) (maxLeaves fuel : Nat) (s : σ),
        prioritySearchP Q mem I V q dist indices maxLeaves depth fuel (some root) s =
          prioritySearch Q' M x V dist' indices maxLeaves fuel t s := by
  obtain ⟨Q', hQ, hpop⟩ := Q.pull (WithinTree mem t f) (fun t' => some (ptrOf mem f t')) (by
    intro a b ha hb hab
    obtain ⟨f1, h1, -⟩ := ptrOf_spec ha.part
    obtain ⟨f2, h2, -⟩ := ptrOf_spec hb.part
    rw [Option.some.injEq] at hab
    rw [hab] at h1
    exact h1.unique h2)
  refine ⟨Q', hQ, fun indices hr σ I M V q x dist dist' hq hd hI depth hh maxLeaves fuel s => ?_⟩
  have loop : ∀ (fuel k : Nat) (st : σ × List (α × Tree (Branch2 α d))), (∀ y ∈ st.2, WithinTree mem t f y.2) →
      priorityLoopP Q mem I V q dist indices maxLeaves depth fuel k (st.1, st.2.map (toPtrs mem f)) =
        priorityLoop Q' M x V dist' indices maxLeaves fuel k st := by
    intro fuel
    induction fuel with
    | zero => intro k st _; rfl
    | succ fuel ih =>
      intro k st hst
      rw [priorityLoopP, priorityLoop]
      rcases hpop st.2 hst with ⟨h1, h2⟩ | ⟨y, r, h1, h2, h3⟩
      · rw [h1]
        have h2' : Q.pop (st.2.map (toPtrs mem f)) = none := h2
        simp only [h2']
      · rw [h1]
        have h3' : Q.pop (st.2.map (toPtrs mem f)) = some ((y.1, some (ptrOf mem f y.2)), r.map (toPtrs mem f)) := h3
        simp only [h3']
        split_ifs with hc
        · rfl
        · have hy : WithinTree mem t f y.2 := hst y (h2.subset (by simp))
          obtain ⟨f', g1, g2⟩ := ptrOf_spec hy.part
          obtain ⟨e1, e2⟩ := priorityDescendP_eq (V := V) (M := M) hroot hn hr hq hd hI g1 g2 hy
            (depth := depth) (hy.height.trans_lt hh) y.1 (st.1, r) (fun z hz => hst z (h2.subset (by simp [hz])))
          rw [e1, Outcome.bind_ok]
          exact ih (k + 1) _ e2
  have h0 : WithinTree mem t f t := ⟨⟨root, f, hroot, List.Subset.refl _⟩, le_rfl, List.Subset.refl _⟩
  have := loop fuel 0 (s, [(0, t)]) (by simpa using h0)
  simpa [prioritySearchP, prioritySearch, toPtrs, ptrOf_eq hroot hn hroot (List.Subset.refl _)] using this

end Search

end Pico
