import Verif.SpecCover
import Mathlib.Algebra.BigOperators.Group.List.Basic
import Mathlib.Logic.Function.Iterate

/-! # The builder of the cover tree keeps every node -/

set_option linter.unusedSectionVars false

namespace Pico

/-- `x` is a value satisfying `P`, or out of fuel where `A` allows that. -/
def Outcome.Sat {τ : Type} (A : Prop) (x : Outcome τ) (P : τ → Prop) : Prop :=
  (A ∧ x = .oof) ∨ ∃ a, x = .ok a ∧ P a

namespace Outcome
variable {A : Prop} {τ υ : Type}

theorem Sat.ok {P : τ → Prop} {a : τ} (h : P a) : Sat A (.ok a) P := Or.inr ⟨a, rfl, h⟩

theorem Sat.bind {x : Outcome τ} {f : τ → Outcome υ} {P : τ → Prop} {Q : υ → Prop} (h : Sat A x P)
    (hf : ∀ a, P a → Sat A (f a) Q) : Sat A (x.bind f) Q := by
  rcases h with ⟨hA, rfl⟩ | ⟨a, rfl, ha⟩
  · exact Or.inl ⟨hA, rfl⟩
  · exact hf a ha

theorem Sat.imp {x : Outcome τ} {P Q : τ → Prop} (h : Sat A x P) (hf : ∀ a, P a → Q a) : Sat A x Q := by
  rcases h with ⟨hA, rfl⟩ | ⟨a, rfl, ha⟩
  · exact Or.inl ⟨hA, rfl⟩
  · exact Or.inr ⟨a, rfl, hf a ha⟩

theorem Sat.foldl {f : υ → τ → Outcome υ} (P : List τ → υ → Prop) (l : List τ) (s : υ) (hs : P l s)
    (hf : ∀ x l s, P (x :: l) s → Sat A (f s x) (P l)) : Sat A (Outcome.foldl f s l) (P []) := by
  induction l generalizing s with
  | nil => exact Sat.ok hs
  | cons x l ih => exact Sat.bind (hf x l s hs) fun a ha => ih a ha

theorem Sat.of_ok {x : Outcome τ} {P : τ → Prop} (h : Sat A x P) {a : τ} (ha : x = .ok a) : P a := by
  rcases h with ⟨_, h⟩ | ⟨b, h, hb⟩
  · rw [h] at ha; cases ha
  · rw [h] at ha; cases ha; exact hb

theorem Sat.exists {x : Outcome τ} {P : τ → Prop} (h : Sat False x P) : ∃ a, x = .ok a ∧ P a := by
  rcases h with ⟨h, _⟩ | h
  · exact h.elim
  · exact h

end Outcome

namespace Cover
open Outcome (Sat)

section Weight
variable {L γ : Type} (w : Nat → Nat)

/-- The weights of all points of a tree. -/
def wt (c : CNode L γ) : Nat := ((Spec.points c).map w).sum

/-- The weights of all points of a list of trees. -/
def wtL (cs : List (CNode L γ)) : Nat := ((Spec.pointsList cs).map w).sum

@[simp] theorem wtL_nil : wtL w ([] : List (CNode L γ)) = 0 := by simp [wtL, Spec.pointsList]

@[simp] theorem wtL_cons (c : CNode L γ) (cs : List (CNode L γ)) : wtL w (c :: cs) = wt w c + wtL w cs := by
  simp [wtL, wt, Spec.pointsList]

@[simp] theorem wtL_append (a b : List (CNode L γ)) : wtL w (a ++ b) = wtL w a + wtL w b := by
  induction a with
  | nil => simp
  | cons c cs ih => simp [ih, Nat.add_assoc]

@[simp] theorem wtL_reverse (a : List (CNode L γ)) : wtL w a.reverse = wtL w a := by
  induction a with
  | nil => simp
  | cons c cs ih => simp [ih, Nat.add_comm]

theorem wtL_perm {a b : List (CNode L γ)} (h : a.Perm b) : wtL w a = wtL w b := by
  induction h with
  | nil => rfl
  | cons x _ ih => simp [ih]
  | swap x y l => simp; omega
  | trans _ _ h1 h2 => exact h1.trans h2

theorem wt_eq (c : CNode L γ) : wt w c = w c.index + wtL w c.children := by
  cases c with
  | node i l m cs => simp [wt, wtL, Spec.points, CNode.index, CNode.children]

@[simp] theorem wt_node (i : Nat) (l : L) (m : γ) (cs : List (CNode L γ)) :
    wt w (.node i l m cs) = w i + wtL w cs := wt_eq w _

@[simp] theorem index_setLevel (l : L) (c : CNode L γ) : (c.setLevel l).index = c.index := by cases c; rfl
@[simp] theorem children_setLevel (l : L) (c : CNode L γ) : (c.setLevel l).children = c.children := by
  cases c; rfl
@[simp] theorem level_setLevel (l : L) (c : CNode L γ) : (c.setLevel l).level = l := by cases c; rfl
@[simp] theorem index_setChildren (cs : List (CNode L γ)) (c : CNode L γ) :
    (c.setChildren cs).index = c.index := by cases c; rfl
@[simp] theorem children_setChildren (cs : List (CNode L γ)) (c : CNode L γ) :
    (c.setChildren cs).children = cs := by cases c; rfl
@[simp] theorem level_setChildren (cs : List (CNode L γ)) (c : CNode L γ) :
    (c.setChildren cs).level = c.level := by cases c; rfl
theorem setChildren_children (c : CNode L γ) : c.setChildren c.children = c := by cases c; rfl

@[simp] theorem wt_setLevel (l : L) (c : CNode L γ) : wt w (c.setLevel l) = wt w c := by
  rw [wt_eq, wt_eq w c]; simp

@[simp] theorem wt_setChildren (cs : List (CNode L γ)) (c : CNode L γ) :
    wt w (c.setChildren cs) = w c.index + wtL w cs := by
  rw [wt_eq]; simp

theorem wt_mem {c : CNode L γ} {cs : List (CNode L γ)} (h : c ∈ cs) : wt w c ≤ wtL w cs := by
  induction cs with
  | nil => cases h
  | cons x xs ih =>
    rcases List.mem_cons.1 h with rfl | h
    · simp
    · have := ih h; simp; omega

theorem wtL_set {cs : List (CNode L γ)} {i : Nat} {m m' : CNode L γ} (h : cs[i]? = some m) :
    wtL w (cs.set i m') + wt w m = wtL w cs + wt w m' := by
  induction cs generalizing i with
  | nil => simp at h
  | cons c cs ih =>
    cases i with
    | zero => simp at h; subst h; simp; omega
    | succ i => simp at h; simp; have := ih h; omega

/-- The number of nodes. -/
abbrev size (c : CNode L γ) : Nat := wt (fun _ => 1) c

/-- The number of nodes of a list of trees. -/
abbrev sizeL (cs : List (CNode L γ)) : Nat := wtL (fun _ => 1) cs

theorem size_pos (c : CNode L γ) : 0 < size c := by rw [size, wt_eq]; omega

theorem length_le_sizeL (cs : List (CNode L γ)) : cs.length ≤ sizeL cs := by
  induction cs with
  | nil => simp
  | cons c cs ih =>
    have := size_pos c
    simp only [sizeL, size, wtL_cons, List.length_cons] at *
    omega

theorem sizeL_leaves {cs : List (CNode L γ)} (h : ∀ c ∈ cs, c.children = []) : sizeL cs = cs.length := by
  induction cs with
  | nil => simp
  | cons c cs ih =>
    have h1 := ih fun c hc => h c (by simp [hc])
    have h2 : size c = 1 := by rw [size, wt_eq, h c (by simp)]; simp
    simp only [sizeL, size, wtL_cons, List.length_cons] at *
    omega

end Weight

variable {α L : Type}

theorem wt_pushChild (w : Nat → Nat) (B : Leveling α L) (p c : CNode L Unit) :
    wt w (pushChild B p c) = wt w p + wt w c := by
  rw [pushChild, wt_setChildren, wt_eq w p]; simp; omega

@[simp] theorem index_pushChild (B : Leveling α L) (p c : CNode L Unit) : (pushChild B p c).index = p.index := by
  simp [pushChild]

@[simp] theorem level_pushChild (B : Leveling α L) (p c : CNode L Unit) : (pushChild B p c).level = p.level := by
  simp [pushChild]

theorem wt_nodeToParent (w : Nat → Nat) (B : Leveling α L) (p c : CNode L Unit) :
    wt w (nodeToParent B p c) = wt w p + wt w c := by
  rw [nodeToParent, wt_setChildren, wt_eq w p]; simp; omega

/-- `remove_leaf` takes one leaf off a branch. -/
theorem removeLast_spec (n : Nat) (cs : List (CNode L Unit)) (hn : sizeL cs ≤ n) (h : cs ≠ []) :
    ∃ leaf cs', removeLast cs = .ok (leaf, cs') ∧ leaf.children = [] ∧
      ∀ w, wt w leaf + wtL w cs' = wtL w cs := by
  induction n generalizing cs with
  | zero =>
    have := length_le_sizeL cs
    exact absurd (List.eq_nil_of_length_eq_zero (by omega)) h
  | succ n ih =>
    match cs, h with
    | [.node i l m []], _ =>
      exact ⟨.node i l m [], [], by simp [removeLast, CNode.children], rfl, fun w => by simp⟩
    | [.node i l m (c :: cs)], _ =>
      obtain ⟨leaf, cs', h1, h2, h3⟩ := ih (c :: cs) (by
        simp only [sizeL, wtL_cons, wt_node, wtL_nil] at hn ⊢; omega) (by simp)
      refine ⟨leaf, [.node i l m cs'], ?_, h2, fun w => ?_⟩
      · rw [removeLast]
        dsimp only [CNode.children]
        rw [removeLeaf, h1]
        rfl
      · have := h3 w
        simp only [wtL_cons, wt_node, wtL_nil] at this ⊢
        omega
    | c :: c' :: cs, _ =>
      obtain ⟨leaf, cs', h1, h2, h3⟩ := ih (c' :: cs) (by
        have := size_pos c
        simp only [sizeL, size, wtL_cons] at hn this ⊢; omega) (by simp)
      refine ⟨leaf, c :: cs', ?_, h2, fun w => ?_⟩
      · rw [removeLast, h1]; rfl
      · have := h3 w
        simp only [wtL_cons] at this ⊢
        omega

theorem removeLeaf_spec (t : CNode L Unit) (h : t.children ≠ []) :
    ∃ leaf t', removeLeaf t = .ok (leaf, t') ∧ leaf.children = [] ∧ t'.level = t.level ∧
      t'.index = t.index ∧ ∀ w, wt w leaf + wt w t' = wt w t := by
  cases t with
  | node i l m cs =>
    obtain ⟨leaf, cs', h1, h2, h3⟩ := removeLast_spec _ cs le_rfl h
    refine ⟨leaf, .node i l m cs', ?_, h2, rfl, rfl, fun w => ?_⟩
    · rw [removeLeaf, h1]; rfl
    · have := h3 w; simp; omega

/-- The nodes that left a tree: they are appended to the accumulators and have no children. -/
def Took (cs : List (CNode L Unit)) (acc acc' : List (CNode L Unit) × List (CNode L Unit)) : Prop :=
  ∃ mv st, acc' = (acc.1 ++ mv, acc.2 ++ st) ∧ (∀ w, wtL w mv + wtL w st = wtL w cs) ∧
    (∀ c ∈ mv, c.children = []) ∧ ∀ c ∈ st, c.children = []

theorem Took.nil (acc : List (CNode L Unit) × List (CNode L Unit)) : Took [] acc acc :=
  ⟨[], [], by simp, by simp, by simp, by simp⟩

theorem Took.trans {a b : List (CNode L Unit)} {x y z : List (CNode L Unit) × List (CNode L Unit)}
    (h1 : Took a x y) (h2 : Took b y z) : Took (a ++ b) x z := by
  obtain ⟨m1, s1, rfl, h1, k1, l1⟩ := h1
  obtain ⟨m2, s2, rfl, h2, k2, l2⟩ := h2
  refine ⟨m1 ++ m2, s1 ++ s2, by simp, fun w => ?_, ?_, ?_⟩
  · have := h1 w; have := h2 w; simp; omega
  · intro c hc
    rcases List.mem_append.1 hc with hc | hc
    exacts [k1 c hc, k2 c hc]
  · intro c hc
    rcases List.mem_append.1 hc with hc | hc
    exacts [l1 c hc, l2 c hc]

theorem Took.congr {a b : List (CNode L Unit)} {x y : List (CNode L Unit) × List (CNode L Unit)}
    (h : Took a x y) (hw : ∀ w, wtL w a = wtL w b) : Took b x y := by
  obtain ⟨m1, s1, rfl, h1, k1, l1⟩ := h
  exact ⟨m1, s1, rfl, fun w => (h1 w).trans (hw w), k1, l1⟩

mutual
theorem strip_took (f : Nat → Bool) : ∀ (c : CNode L Unit) (acc : List (CNode L Unit) × List (CNode L Unit)),
    Took c.children acc (strip f c acc)
  | .node _ _ _ cs, acc => by
    rw [strip]
    exact stripList_took f cs acc

theorem stripList_took (f : Nat → Bool) : ∀ (cs : List (CNode L Unit))
    (acc : List (CNode L Unit) × List (CNode L Unit)), Took cs acc (stripList f cs acc)
  | [], acc => by rw [stripList]; exact Took.nil acc
  | c :: cs, acc => by
    rw [stripList]
    have h1 := strip_took f c acc
    have h2 : Took [c.setChildren []] (strip f c acc)
        (if f (c.setChildren []).index then ((strip f c acc).1 ++ [c.setChildren []], (strip f c acc).2)
          else ((strip f c acc).1, (strip f c acc).2 ++ [c.setChildren []])) := by
      split
      · exact ⟨[c.setChildren []], [], by simp, by simp, by simp, by simp⟩
      · exact ⟨[], [c.setChildren []], by simp, by simp, by simp, by simp⟩
    have h3 := stripList_took f cs (if f (c.setChildren []).index then
      ((strip f c acc).1 ++ [c.setChildren []], (strip f c acc).2)
      else ((strip f c acc).1, (strip f c acc).2 ++ [c.setChildren []]))
    refine ((h1.trans h2).trans h3).congr fun w => ?_
    simp [wt_eq w c]
    omega
end

theorem strip_loop_took (f : Nat → Bool) (l : List (CNode L Unit))
    (acc : List (CNode L Unit) × List (CNode L Unit)) :
    Took l acc (l.foldl (fun acc x => strip f x (acc.1 ++ [x.setChildren []], acc.2)) acc) := by
  induction l generalizing acc with
  | nil => exact Took.nil acc
  | cons x l ih =>
    have h0 : Took [x.setChildren []] acc (acc.1 ++ [x.setChildren []], acc.2) :=
      ⟨[x.setChildren []], [], by simp, by simp, by simp, by simp⟩
    refine ((h0.trans (strip_took f x _)).trans (ih _)).congr fun w => ?_
    simp [wt_eq w x, Nat.add_assoc]

/-- `extract` splits a tree into a remaining tree and single nodes. -/
theorem extract_spec (P : StdPart (CNode L Unit)) (keep toMove : Nat → Bool) (A : Prop) (fuel : Nat)
    (t : CNode L Unit) (acc : List (CNode L Unit) × List (CNode L Unit)) (hA : A ∨ size t ≤ fuel) :
    Sat A (extract P keep toMove fuel t acc) fun r => r.1.index = t.index ∧ r.1.level = t.level ∧
      ∃ mv st, r.2 = (acc.1 ++ mv, acc.2 ++ st) ∧
        (∀ w, wt w r.1 + wtL w mv + wtL w st = wt w t) ∧
        (∀ c ∈ mv, c.children = []) ∧ ∀ c ∈ st, c.children = [] := by
  induction fuel generalizing t acc with
  | zero =>
    rcases hA with hA | hA
    · exact Or.inl ⟨hA, rfl⟩
    · have := size_pos t; omega
  | succ fuel ih =>
    rw [extract]
    split
    · exact Sat.ok ⟨rfl, rfl, [], [], by simp, by simp, by simp, by simp⟩
    next c cs hcs =>
    rw [← hcs]
    set front := P.front (fun x => keep x.index) t.children with hf
    set back := P.back (fun x => keep x.index) t.children with hb
    have hperm : ∀ w, wtL w front + wtL w back = wtL w t.children := fun w => by
      rw [← wtL_append]; exact wtL_perm w (P.perm _ _)
    obtain ⟨m0, s0, e0, w0, k0, l0⟩ := strip_loop_took toMove back.reverse acc
    set acc1 := back.reverse.foldl (fun acc x => strip toMove x (acc.1 ++ [x.setChildren []], acc.2)) acc
      with hacc1
    have key : Sat A (Outcome.foldl (fun (st : List (CNode L Unit) × _) x =>
          (extract P keep toMove fuel x st.2).bind fun r => .ok (r.1 :: st.1, r.2))
        ([], acc1) front.reverse) fun r => ∃ mv st, r.2 = (acc1.1 ++ mv, acc1.2 ++ st) ∧
          (∀ w, wtL w r.1 + wtL w mv + wtL w st = wtL w front.reverse) ∧
          (∀ c ∈ mv, c.children = []) ∧ ∀ c ∈ st, c.children = [] := by
      have hsub : ∀ x ∈ front.reverse, A ∨ size x ≤ fuel := by
        intro x hx
        rcases hA with hA | hA
        · exact Or.inl hA
        · refine Or.inr ?_
          have h1 := wt_mem (fun _ => 1) (List.mem_reverse.1 hx)
          have h2 := hperm fun _ => 1
          have h3 := wt_eq (fun _ => 1) t
          simp only [size] at *
          omega
      refine (Sat.foldl (P := fun l r => (∀ x ∈ l, A ∨ size x ≤ fuel) ∧ ∃ mv st,
        r.2 = (acc1.1 ++ mv, acc1.2 ++ st) ∧
          (∀ w, wtL w r.1 + wtL w mv + wtL w st + wtL w l = wtL w front.reverse) ∧
          (∀ c ∈ mv, c.children = []) ∧ ∀ c ∈ st, c.children = []) _ _ ?_ ?_).imp ?_
      · exact ⟨hsub, [], [], by simp, by simp, by simp, by simp⟩
      · rintro x l r ⟨hs, mv, st, h1, h2, h3, h4⟩
        refine Sat.bind (ih x r.2 (hs x (by simp))) ?_
        rintro q ⟨-, -, mv', st', h1', h2', h3', h4'⟩
        refine Sat.ok ⟨fun x hx => hs x (by simp [hx]), mv ++ mv', st ++ st', ?_, ?_, ?_, ?_⟩
        · rw [h1', h1]; simp
        · intro w
          have := h2 w; have := h2' w
          simp only [wtL_cons, wtL_append] at *
          omega
        · intro c hc
          rcases List.mem_append.1 hc with hc | hc
          exacts [h3 c hc, h3' c hc]
        · intro c hc
          rcases List.mem_append.1 hc with hc | hc
          exacts [h4 c hc, h4' c hc]
      · rintro r ⟨-, mv, st, h1, h2, h3, h4⟩
        exact ⟨mv, st, h1, fun w => by have := h2 w; simp at this ⊢; omega, h3, h4⟩
    refine Sat.bind key ?_
    rintro r ⟨mv, st, h1, h2, h3, h4⟩
    refine Sat.ok ⟨by simp, by simp, m0 ++ mv, s0 ++ st, ?_, ?_, ?_, ?_⟩
    · rw [h1, e0]; simp
    · intro w
      have := h2 w; have := w0 w; have := hperm w; have := wt_eq w t
      simp only [wtL_append, wtL_reverse, wt_setChildren] at *
      omega
    · intro c hc
      rcases List.mem_append.1 hc with hc | hc
      exacts [k0 c hc, h3 c hc]
    · intro c hc
      rcases List.mem_append.1 hc with hc | hc
      exacts [l0 c hc, h4 c hc]

theorem argMin_lt [LT α] [DecidableLT α] (f : CNode L Unit → α) (c : CNode L Unit) (cs : List (CNode L Unit)) :
    argMin f (c :: cs) < (c :: cs).length := by
  have key : ∀ (l : List (CNode L Unit)) (st : Nat × α × Nat), st.2.2 < st.1 →
      (l.foldl (fun (st : Nat × α × Nat) x =>
        if f x < st.2.1 then (st.1 + 1, f x, st.1) else (st.1 + 1, st.2)) st).2.2 < st.1 + l.length := by
    intro l
    induction l with
    | nil => intro st h; simpa using h
    | cons x l ih =>
      intro st h
      rw [List.foldl_cons]
      split
      · have := ih (st.1 + 1, f x, st.1) (by simp)
        simp only [List.length_cons] at this ⊢; omega
      · have := ih (st.1 + 1, st.2) (by simp; omega)
        simp only [List.length_cons] at this ⊢; omega
  have := key cs (1, f c, 0) (by simp)
  rw [argMin, List.length_cons]
  omega

/-- What inserting a single node does: it adds the node. -/
def Adds (A : Prop) (bound : Nat) (ins : CNode L Unit → CNode L Unit → Outcome (CNode L Unit)) : Prop :=
  ∀ tree node, node.children = [] → (A ∨ size tree < bound) →
    Sat A (ins tree node) fun r => r.index = tree.index ∧ r.level = tree.level ∧
      ∀ w, wt w r = wt w tree + wt w node

theorem Adds.foldl {A : Prop} {bound : Nat} {ins : CNode L Unit → CNode L Unit → Outcome (CNode L Unit)}
    (h : Adds A bound ins) (tree : CNode L Unit) (l : List (CNode L Unit)) (hl : ∀ c ∈ l, c.children = [])
    (hb : A ∨ size tree + l.length ≤ bound) :
    Sat A (Outcome.foldl ins tree l) fun r => r.index = tree.index ∧ r.level = tree.level ∧
      ∀ w, wt w r = wt w tree + wtL w l := by
  refine (Sat.foldl (P := fun rest r => (∀ c ∈ rest, c.children = []) ∧ (A ∨ size r + rest.length ≤ bound) ∧
    r.index = tree.index ∧ r.level = tree.level ∧ ∀ w, wt w r + wtL w rest = wt w tree + wtL w l) _ _ ?_ ?_).imp ?_
  · exact ⟨hl, hb, rfl, rfl, fun w => rfl⟩
  · rintro x rest r ⟨h1, h2, h3, h4, h5⟩
    have hx := h1 x (by simp)
    refine (h r x hx ?_).imp ?_
    · rcases h2 with h2 | h2
      · exact Or.inl h2
      · rw [List.length_cons] at h2; exact Or.inr (by omega)
    · rintro r' ⟨h6, h7, h8⟩
      refine ⟨fun c hc => h1 c (by simp [hc]), ?_, h6.trans h3, h7.trans h4, fun w => ?_⟩
      · rcases h2 with h2 | h2
        · exact Or.inl h2
        · refine Or.inr ?_
          have h9 := h8 fun _ => 1
          have h10 := wt_eq (fun _ => 1) x
          rw [hx] at h10
          simp only [List.length_cons, size, wtL_nil] at *
          omega
      · have := h5 w; have := h8 w
        simp only [wtL_cons] at *
        omega
  · rintro r ⟨-, -, h3, h4, h5⟩
    exact ⟨h3, h4, fun w => by have := h5 w; simpa using this⟩

section
variable [LinearOrder α] (B : Leveling α L) (P : StdPart (CNode L Unit)) (dist : Nat → Nat → α)

theorem rebalanceChildren_spec {A : Prop} {fuel : Nat}
    {ins : CNode L Unit → CNode L Unit → Outcome (CNode L Unit)} (h : Adds A fuel ins) (x : Nat) (d : α)
    (cs toMove : List (CNode L Unit)) (hm : ∀ c ∈ toMove, c.children = [])
    (hb : A ∨ sizeL cs ≤ fuel) :
    Sat A (rebalanceChildren P dist ins fuel x d cs toMove) fun q =>
      q.1.length = cs.length ∧ (∀ c ∈ q.2, c.children = []) ∧
      ∀ w, wtL w q.1 + wtL w q.2 = wtL w cs + wtL w toMove := by
  induction cs generalizing toMove with
  | nil => exact Sat.ok ⟨rfl, hm, fun w => by simp⟩
  | cons c cs ih =>
    have hc : A ∨ size c ≤ fuel := hb.imp_right fun hb => by
      simp only [sizeL, size, wtL_cons] at hb ⊢; omega
    have hcs : A ∨ sizeL cs ≤ fuel := hb.imp_right fun hb => by
      simp only [sizeL, wtL_cons] at hb ⊢; omega
    rw [rebalanceChildren]
    split
    · refine Sat.bind (extract_spec P _ _ A fuel c (toMove, []) hc) ?_
      rintro r ⟨-, -, mv, st, h1, h2, h3, h4⟩
      rw [h1]
      simp only [List.nil_append]
      refine Sat.bind (h.foldl r.1 st.reverse (by simpa using h4) ?_) ?_
      · refine hc.imp_right fun hc => ?_
        have h5 := h2 fun _ => 1
        have h6 := sizeL_leaves h4
        simp only [size, sizeL, List.length_reverse] at *
        omega
      rintro c' ⟨-, -, h5⟩
      refine Sat.bind (ih (toMove ++ mv) ?_ hcs) ?_
      · intro c hc
        rcases List.mem_append.1 hc with hc | hc
        exacts [hm c hc, h3 c hc]
      rintro q ⟨h6, h7, h8⟩
      refine Sat.ok ⟨by simp [h6], h7, fun w => ?_⟩
      have := h2 w; have := h5 w; have := h8 w
      simp only [wtL_cons, wtL_append, wtL_reverse] at *
      omega
    · refine Sat.bind (ih toMove hm hcs) ?_
      rintro q ⟨h6, h7, h8⟩
      refine Sat.ok ⟨by simp [h6], h7, fun w => ?_⟩
      have := h8 w
      simp only [wtL_cons] at *
      omega

theorem rebalance_spec {A : Prop} {fuel : Nat}
    {ins : CNode L Unit → CNode L Unit → Outcome (CNode L Unit)} (h : Adds A fuel ins)
    (parent node : CNode L Unit) (hn : node.children = []) (hb : A ∨ size parent ≤ fuel) :
    Sat A (rebalance B P dist ins fuel parent node) fun r => r.index = parent.index ∧
      r.level = parent.level ∧ ∀ w, wt w r = wt w parent + wt w node := by
  have hp := fun w => wt_eq w parent
  refine Sat.bind (rebalanceChildren_spec P dist h _ _ parent.children [] (by simp) ?_) ?_
  · refine hb.imp_right fun hb => ?_
    have := hp fun _ => 1
    simp only [size, sizeL] at *
    omega
  rintro q ⟨-, h2, h3⟩
  refine Sat.bind (h.foldl (node.setLevel _) q.2.reverse (by simpa using h2) ?_) ?_
  · refine hb.imp_right fun hb => ?_
    have h4 := hp fun _ => 1
    have h5 := h3 fun _ => 1
    have h6 := sizeL_leaves h2
    have h7 := wt_eq (fun _ => 1) node
    rw [hn] at h7
    simp only [size, sizeL, List.length_reverse, wt_setLevel, wtL_nil] at *
    omega
  rintro node' ⟨-, -, h4⟩
  refine Sat.ok ⟨by simp, by simp, fun w => ?_⟩
  rw [wt_pushChild]
  have := h3 w; have := h4 w; have := hp w
  simp only [wt_setChildren, wtL_reverse, wt_setLevel, wtL_nil] at *
  omega

/-- `insert_covered` adds the node and finishes: the number of nested calls is at most the size of the tree. -/
theorem insertCovered_adds (A : Prop) (fuel : Nat) : Adds A fuel (insertCovered B P dist fuel) := by
  induction fuel with
  | zero =>
    intro tree node _ hb
    rcases hb with hb | hb
    · exact Or.inl ⟨hb, rfl⟩
    · omega
  | succ fuel ih =>
    intro tree node hn hb
    rw [insertCovered]
    split
    · exact Sat.ok ⟨by simp, by simp, fun w => wt_pushChild w B tree node⟩
    next c cs hcs =>
    have hlt := argMin_lt (fun x => dist node.index x.index) c cs
    rw [← hcs] at hlt ⊢
    dsimp only
    split
    next h0 => rw [List.getElem?_eq_none_iff] at h0; omega
    next m hm =>
    have ht := fun w => wt_eq w tree
    split
    · have hsz := wt_mem (fun _ => 1) (List.mem_of_getElem? hm)
      refine Sat.bind (ih m node hn ?_) ?_
      · refine hb.imp_right fun hb => ?_
        have := ht fun _ => 1
        simp only [size] at *
        omega
      rintro m' ⟨-, -, h3⟩
      refine Sat.ok ⟨by simp, by simp, fun w => ?_⟩
      have h4 := wtL_set w hm (m' := m')
      have := h3 w; have := ht w
      simp only [wt_setChildren]
      omega
    · exact rebalance_spec B P dist ih tree node hn (hb.imp_right fun hb => by omega)

/-- `insert` raises the level of the tree by moving leaves to the top. -/
theorem raise_spec (A : Prop) (level : L) (fuel : Nat) (tree : CNode L Unit) (h : 2 ≤ size tree)
    (hA : A ∨ ∃ k, k < fuel ∧ B.lt (B.up^[k] tree.level) level = false) :
    Sat A (raise B level fuel tree) fun r => (∃ k, r.level = B.up^[k] tree.level) ∧
      ∀ w, wt w r = wt w tree := by
  induction fuel generalizing tree with
  | zero =>
    rcases hA with hA | ⟨k, hk, _⟩
    · exact Or.inl ⟨hA, rfl⟩
    · omega
  | succ fuel ih =>
    rw [raise]
    split
    next hlt =>
      have hne : tree.children ≠ [] := by
        intro h0
        have := wt_eq (fun _ => 1) tree
        rw [h0] at this
        simp only [size, wtL_nil] at *
        omega
      obtain ⟨leaf, t', h1, h2, h3, h4, h5⟩ := removeLeaf_spec tree hne
      rw [h1]
      have hw : ∀ w, wt w (nodeToParent B leaf t') = wt w tree := fun w => by
        rw [wt_nodeToParent]; exact h5 w
      have hl : (nodeToParent B leaf t').level = B.up tree.level := by
        simp [nodeToParent, h3]
      refine (ih (nodeToParent B leaf t') (by simp only [size] at h ⊢; rw [hw]; exact h) ?_).imp ?_
      · rcases hA with hA | ⟨k, hk, hk'⟩
        · exact Or.inl hA
        · cases k with
          | zero => rw [Function.iterate_zero, id] at hk'; rw [hk'] at hlt; cases hlt
          | succ k =>
            refine Or.inr ⟨k, by omega, ?_⟩
            rw [hl]
            rwa [Function.iterate_succ_apply] at hk'
      · rintro r ⟨⟨k, hk⟩, h7⟩
        refine ⟨⟨k + 1, ?_⟩, fun w => (h7 w).trans (hw w)⟩
        rw [hk, hl, Function.iterate_succ_apply]
    next => exact Sat.ok ⟨⟨0, rfl⟩, fun w => rfl⟩

variable [Add α]

/-- `insert` adds the node. -/
theorem insert_spec (A : Prop) (fuel : Nat) (tree node : CNode L Unit) (hn : node.children = [])
    (h : 2 ≤ size tree) (hA : A ∨ size tree < fuel ∧ (dist node.index tree.index > B.cover tree.level →
      ∃ k, k < fuel ∧ B.lt (B.up^[k] tree.level)
        (B.floorLevel (B.cover tree.level + dist node.index tree.index)) = false)) :
    Sat A (insert B P dist fuel tree node) fun r => (∃ k, r.level = B.up^[k] tree.level) ∧
      (∀ w, wt w r = wt w tree + wt w node) ∧
      (¬ dist node.index tree.index > B.cover tree.level → r.index = tree.index ∧ r.level = tree.level) := by
  rw [insert]
  split
  next hd =>
    refine Sat.bind (raise_spec B A _ fuel tree h (hA.imp_right fun hA => hA.2 hd)) ?_
    rintro r ⟨⟨k, hk⟩, h2⟩
    refine Sat.ok ⟨⟨k + 1, ?_⟩, fun w => ?_, fun h => absurd hd h⟩
    · rw [Function.iterate_succ_apply', ← hk]
      simp [nodeToParent]
    · rw [wt_nodeToParent, h2 w, Nat.add_comm]
  next hd =>
    refine (insertCovered_adds B P dist A fuel tree node hn (hA.imp_right fun hA => hA.1)).imp ?_
    rintro r ⟨h1, h2, h3⟩
    exact ⟨⟨0, h2⟩, h3, fun _ => ⟨h1, h2⟩⟩

theorem createNode_spec (A : Prop) {cap used : Nat} (h : used < cap) (i : Nat) :
    Sat A (createNode B cap used i) fun r => r = (.node i B.unset () [], used + 1) := by
  rw [createNode, bufferAllocate, if_pos h]
  exact Sat.ok rfl

end

end Cover

end Pico
