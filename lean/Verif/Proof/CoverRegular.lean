import Verif.Model.CoverRegular
import Verif.Proof.CoverSearch

/-! # The regular cover tree holds the points -/

namespace Pico

namespace Outcome
variable {τ υ : Type}

/-- If the computation returns, then with `P`. -/
def Returns (x : Outcome τ) (P : τ → Prop) : Prop := ∀ a, x = .ok a → P a

theorem Returns.ok {P : τ → Prop} {a : τ} (h : P a) : Returns (.ok a) P := by
  rintro b ⟨⟩
  exact h

theorem Returns.bind {x : Outcome τ} {f : τ → Outcome υ} {P : τ → Prop} {Q : υ → Prop} (h : Returns x P)
    (hf : ∀ a, P a → Returns (f a) Q) : Returns (x.bind f) Q := by
  intro b hb
  cases x with
  | ok a => exact hf a (h a rfl) b hb
  | ub => cases hb
  | oof => cases hb

theorem Returns.imp {x : Outcome τ} {P Q : τ → Prop} (h : Returns x P) (hf : ∀ a, P a → Q a) : Returns x Q :=
  fun a ha => hf a (h a ha)

theorem Returns.foldl {f : υ → τ → Outcome υ} (P : List τ → υ → Prop) (l : List τ) (s : υ) (h0 : P l s)
    (hs : ∀ x l s, P (x :: l) s → Returns (f s x) fun s' => P l s') : Returns (Outcome.foldl f s l) (P []) := by
  induction l generalizing s with
  | nil => exact Returns.ok h0
  | cons x l ih => exact Returns.bind (hs x l s h0) fun a ha => ih a ha

theorem Sat.returns {A : Prop} {x : Outcome τ} {P : τ → Prop} (h : Sat A x P) : Returns x P := fun _ ha => h.of_ok ha

end Outcome

namespace Cover
open Outcome (Returns Sat)
variable {α L : Type} [LinearOrder α] (B : Leveling α L) (P : StdPart (CNode L Unit)) (dist : Nat → Nat → α)

/-- What inserting a single node does if it returns: it adds the node, which may become the root. -/
def Extends (ins : CNode L Unit → CNode L Unit → Outcome (CNode L Unit)) : Prop :=
  ∀ tree node, node.children = [] → Returns (ins tree node) fun r => ∀ w, wt w r = wt w tree + wt w node

omit [LinearOrder α] in
theorem Extends.foldl {ins : CNode L Unit → CNode L Unit → Outcome (CNode L Unit)} (h : Extends ins)
    (tree : CNode L Unit) (l : List (CNode L Unit)) (hl : ∀ c ∈ l, c.children = []) :
    Returns (Outcome.foldl ins tree l) fun r => ∀ w, wt w r = wt w tree + wtL w l := by
  refine (Returns.foldl (fun rest r => (∀ c ∈ rest, c.children = []) ∧
    ∀ w, wt w r + wtL w rest = wt w tree + wtL w l) _ _ ⟨hl, fun w => rfl⟩ ?_).imp ?_
  · rintro x rest r ⟨h1, h2⟩
    refine (h r x (h1 x (by simp))).imp fun r' h3 => ⟨fun c hc => h1 c (by simp [hc]), fun w => ?_⟩
    have := h2 w
    have := h3 w
    simp only [wtL_cons] at *
    omega
  · rintro r ⟨-, h⟩ w
    simpa using h w

omit [LinearOrder α] in
theorem removeLeaf_returns (t : CNode L Unit) :
    Returns (removeLeaf t) fun r => ∀ w, wt w r.1 + wt w r.2 = wt w t := by
  intro r hr
  have hne : t.children ≠ [] := by
    intro h0
    cases t with
    | node i l m cs =>
      simp only [CNode.children] at h0
      subst h0
      simp [removeLeaf, removeLast, Outcome.bind] at hr
  obtain ⟨leaf, t', h1, -, -, -, h2⟩ := removeLeaf_spec t hne
  rw [h1] at hr
  cases hr
  exact h2

theorem raiseRegular_returns (x fuel : Nat) (c : α) (tree : CNode L Unit) :
    Returns (raiseRegular B dist x fuel c tree) fun r => ∀ w, wt w r = wt w tree := by
  induction fuel generalizing c tree with
  | zero => intro a h; cases h
  | succ fuel ih =>
    rw [raiseRegular]
    split
    · refine Returns.bind (removeLeaf_returns tree) fun r hr => ?_
      refine (ih _ _).imp fun a ha w => ?_
      rw [ha, wt_nodeToParent]
      exact hr w
    · exact Returns.ok fun w => rfl

/-- Where the loop that raises the root stops: the root is near enough, and the root before the last step was not. -/
theorem raiseRegular_stops (x fuel : Nat) (c : α) (tree : CNode L Unit) (hc : c = B.parent tree.level) :
    Returns (raiseRegular B dist x fuel c tree) fun r => dist x r.index ≤ B.parent r.level ∧
      (r = tree ∨ ∃ s leaf rest, removeLeaf s = .ok (leaf, rest) ∧ r = nodeToParent B leaf rest ∧
        B.parent s.level < dist x s.index) := by
  induction fuel generalizing c tree with
  | zero => intro a h; cases h
  | succ fuel ih =>
    rw [raiseRegular]
    split
    · rename_i hd
      intro a ha
      cases hr : removeLeaf tree with
      | ub => rw [hr] at ha; cases ha
      | oof => rw [hr] at ha; cases ha
      | ok r =>
        rw [hr] at ha
        obtain ⟨h1, h2⟩ := ih _ _ rfl a ha
        refine ⟨h1, .inr ?_⟩
        rcases h2 with h2 | h2
        · exact ⟨tree, r.1, r.2, hr, h2, hc ▸ hd⟩
        · exact h2
    · rename_i hd
      exact Returns.ok ⟨hc ▸ not_lt.1 hd, .inl rfl⟩

theorem rebalanceChildrenRegular_returns {ins : CNode L Unit → CNode L Unit → Outcome (CNode L Unit)}
    (h : Extends ins) (fuel x : Nat) (cs toMove : List (CNode L Unit)) (hm : ∀ c ∈ toMove, c.children = []) :
    Returns (rebalanceChildrenRegular P dist ins fuel x cs toMove) fun q => (∀ c ∈ q.2, c.children = []) ∧
      ∀ w, wtL w q.1 + wtL w q.2 = wtL w cs + wtL w toMove := by
  induction cs generalizing toMove with
  | nil => exact Returns.ok ⟨hm, fun w => by simp⟩
  | cons c cs ih =>
    rw [rebalanceChildrenRegular]
    refine Returns.bind (extract_spec P _ _ True fuel c (toMove, []) (Or.inl trivial)).returns ?_
    rintro r ⟨-, -, mv, st, h1, h2, h3, h4⟩
    rw [h1]
    simp only [List.nil_append]
    refine Returns.bind (h.foldl r.1 st.reverse (by simpa using h4)) fun c' h5 => ?_
    refine Returns.bind (ih (toMove ++ mv) ?_) ?_
    · intro c hc
      rcases List.mem_append.1 hc with hc | hc
      exacts [hm c hc, h3 c hc]
    rintro q ⟨h7, h8⟩
    refine Returns.ok ⟨h7, fun w => ?_⟩
    have := h2 w; have := h5 w; have := h8 w
    simp only [wtL_cons, wtL_append, wtL_reverse] at *
    omega

theorem rebalanceRegular_extends {ins : CNode L Unit → CNode L Unit → Outcome (CNode L Unit)} (h : Extends ins)
    (fuel : Nat) : Extends (rebalanceRegular B P dist ins fuel) := by
  intro parent node _
  rw [rebalanceRegular]
  refine Returns.bind (rebalanceChildrenRegular_returns P dist h fuel node.index parent.children [] (by simp)) ?_
  rintro q ⟨h2, h3⟩
  refine Returns.bind (h.foldl (node.setLevel _) q.2.reverse (by simpa using h2)) fun node' h4 => ?_
  refine Returns.ok fun w => ?_
  rw [wt_pushChild]
  have := h3 w; have := h4 w; have := wt_eq w parent
  simp only [wt_setChildren, wtL_reverse, wt_setLevel, wtL_nil] at *
  omega

theorem insertCoveredRegular_extends {ins : CNode L Unit → CNode L Unit → Outcome (CNode L Unit)} (h : Extends ins)
    (fuel : Nat) : Extends (insertCoveredRegular B P dist ins fuel) := by
  induction fuel with
  | zero => intro tree node _ a ha; cases ha
  | succ fuel ih =>
    intro tree node hn
    rw [insertCoveredRegular]
    split
    · exact Returns.ok fun w => wt_pushChild w B tree node
    next c cs hcs =>
    rw [← hcs]
    dsimp only
    split
    · intro a ha; cases ha
    next m hm =>
    split
    · refine Returns.bind (ih m node hn) fun m' h3 => ?_
      refine Returns.ok fun w => ?_
      have h4 := wtL_set w hm (m' := m')
      have := h3 w; have := wt_eq w tree
      simp only [wt_setChildren]
      omega
    · exact rebalanceRegular_extends B P dist h fuel tree node hn

variable [Mul α] (value : α)

theorem insertRegular_extends (fuel : Nat) : Extends (insertRegular B P dist value fuel) := by
  induction fuel with
  | zero => intro tree node _ a ha; cases ha
  | succ fuel ih =>
    intro tree node hn
    rw [insertRegular]
    split
    · refine Returns.bind (raiseRegular_returns B dist _ fuel _ tree) fun r hr => ?_
      refine Returns.ok fun w => ?_
      rw [wt_nodeToParent, hr w, Nat.add_comm]
    · exact insertCoveredRegular_extends B P dist ih fuel tree node hn

theorem insertAllRegular_points (fuel : Nat) (indices : List Nat) (h : indices ≠ []) :
    Returns (insertAllRegular B P dist value fuel indices) fun t => (Spec.points t).Perm indices := by
  match indices, h with
  | [i], _ =>
    have : insertAllRegular B P dist value fuel [i] = .ok (.node i B.zero () []) := by
      simp [insertAllRegular, insertFirstTwo, createNode, bufferAllocate, Outcome.bind, Outcome.foldl, CNode.setLevel]
    rw [this]
    exact Returns.ok (by simp [Spec.points, Spec.pointsList])
  | i :: j :: rest, _ =>
    rw [insertAllRegular, insertFirstTwo_two]
    change Returns (Outcome.bind (Outcome.foldl _ _ rest) _) _
    refine Returns.bind (Returns.foldl (fun l st => ∀ w, wt w st.1 + (l.map w).sum = w i + w j + (rest.map w).sum)
      _ _ ?_ ?_) ?_
    · intro w
      simp only [wt_node, wtL_cons, wtL_nil]
      omega
    · rintro k l st hst
      refine Returns.bind (P := fun r => r.1 = .node k B.unset () []) ?_ ?_
      · rw [createNode, bufferAllocate]
        split
        · exact Returns.ok rfl
        · intro a ha; cases ha
      · rintro c hc
        rw [hc]
        refine Returns.bind (insertRegular_extends B P dist value fuel st.1 (.node k B.unset () []) rfl)
          fun r hr => ?_
        refine Returns.ok fun w => ?_
        have := hst w
        have := hr w
        simp only [List.map_cons, List.sum_cons, wt_node, wtL_nil] at *
        omega
    · intro st hst
      refine Returns.ok (perm_of_weights fun w => ?_)
      have := hst w
      simp only [List.map_nil, List.sum_nil, List.map_cons, List.sum_cons] at this ⊢
      change wt w st.1 = _
      omega

theorem buildRegular_sound (fuel : Nat) (indices : List Nat) (h : indices ≠ []) :
    Returns (buildRegular B P dist value fuel indices) fun t =>
      (Spec.points t).Perm indices ∧ Spec.Everywhere (LargestBelow dist) t := by
  rw [buildRegular]
  refine Returns.bind (insertAllRegular_points B P dist value fuel indices h) fun t ht => ?_
  rw [bufferCopy_ok _ t 0 (by rw [size_eq_length, ht.length_eq]; omega)]
  refine Returns.ok ⟨?_, updateMaxDistance_spec dist t⟩
  rw [points_updateMaxDistance]
  exact ht

end Cover

theorem CoverTree.makeRegular_sound {α L : Type} [LinearOrder α] [Mul α] {d : Nat} (B : Leveling α L)
    (P : StdPart (CNode L Unit)) (value : α) (M : Metric α d) (N : Num α) (pts : Nat → Pt α d) (n : Nat) (hn : 0 < n)
    (indices : List Nat) (hi : indices.Perm (List.range n)) (fuel : Nat) {T : CoverTree α d L}
    (h : makeRegular B P value M N pts n indices fuel = .ok T) :
    T.metric = M ∧ T.num = N ∧ T.pts = pts ∧ T.n = n ∧ T.Sound := by
  rw [makeRegular] at h
  have hne : indices ≠ [] := by
    intro h0
    rw [h0] at hi
    have := hi.length_eq
    simp at this
    omega
  cases hb : Cover.buildRegular B P (fun i j => M.dist (pts i) (pts j)) value fuel indices with
  | ok t =>
    rw [hb] at h
    cases h
    obtain ⟨h1, h2⟩ := Cover.buildRegular_sound B P _ value fuel indices hne t hb
    exact ⟨rfl, rfl, rfl, rfl, h1.trans hi, h2⟩
  | ub => rw [hb] at h; cases h
  | oof => rw [hb] at h; cases h

end Pico
