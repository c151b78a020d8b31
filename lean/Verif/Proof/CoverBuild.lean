import Verif.Proof.Cover
import Mathlib.Order.Basic
import Mathlib.Algebra.Order.Monoid.Defs
import Mathlib.Data.List.Count

/-! # Building a cover tree: points kept, termination -/

set_option linter.unusedSectionVars false

namespace Pico

namespace Outcome
variable {τ υ : Type}

/-- `y` is what `x` becomes with more fuel. -/
def Le (x y : Outcome τ) : Prop := x = .oof ∨ x = y

theorem Le.refl (x : Outcome τ) : Le x x := Or.inr rfl

theorem Le.trans {x y z : Outcome τ} (h1 : Le x y) (h2 : Le y z) : Le x z := by
  rcases h1 with h1 | rfl
  · exact Or.inl h1
  · exact h2

theorem Le.bind {x y : Outcome τ} {f g : τ → Outcome υ} (h : Le x y) (hf : ∀ a, Le (f a) (g a)) :
    Le (x.bind f) (y.bind g) := by
  rcases h with rfl | rfl
  · exact Or.inl rfl
  · cases x with
    | ok a => exact hf a
    | ub => exact Or.inr rfl
    | oof => exact Or.inl rfl

theorem Le.foldl {f g : υ → τ → Outcome υ} (h : ∀ s x, Le (f s x) (g s x)) (l : List τ) (s : υ) :
    Le (Outcome.foldl f s l) (Outcome.foldl g s l) := by
  induction l generalizing s with
  | nil => exact Le.refl _
  | cons x l ih => exact Le.bind (h s x) fun a => ih a

theorem Le.ok {x y : Outcome τ} (h : Le x y) {a : τ} (hx : x = .ok a) : y = .ok a := by
  rcases h with h | h
  · rw [h] at hx; cases hx
  · rw [← h, hx]

/-- A function of the fuel that only grows has one value. -/
theorem mono_le {f : Nat → Outcome τ} (h : ∀ n, Le (f n) (f (n + 1))) {m n : Nat} (hmn : m ≤ n) :
    Le (f m) (f n) := by
  induction n, hmn using Nat.le_induction with
  | base => exact Le.refl _
  | succ n _ ih => exact ih.trans (h n)

end Outcome

namespace Cover
open Outcome (Sat Le)

variable {α L : Type}

theorem extract_mono (P : StdPart (CNode L Unit)) (keep toMove : Nat → Bool) (fuel : Nat) (t : CNode L Unit)
    (acc : List (CNode L Unit) × List (CNode L Unit)) :
    Le (extract P keep toMove fuel t acc) (extract P keep toMove (fuel + 1) t acc) := by
  induction fuel generalizing t acc with
  | zero => exact Or.inl rfl
  | succ fuel ih =>
    rw [extract, extract]
    split
    · exact Le.refl _
    · refine Le.bind (Le.foldl ?_ _ _) fun _ => Le.refl _
      exact fun s x => Le.bind (ih x s.2) fun _ => Le.refl _

section
variable [LinearOrder α] (B : Leveling α L) (P : StdPart (CNode L Unit)) (dist : Nat → Nat → α)

theorem rebalanceChildren_mono {ins ins' : CNode L Unit → CNode L Unit → Outcome (CNode L Unit)}
    (h : ∀ s x, Le (ins s x) (ins' s x)) (fuel x : Nat) (d : α) (cs toMove : List (CNode L Unit)) :
    Le (rebalanceChildren P dist ins fuel x d cs toMove)
      (rebalanceChildren P dist ins' (fuel + 1) x d cs toMove) := by
  induction cs generalizing toMove with
  | nil => exact Le.refl _
  | cons c cs ih =>
    rw [rebalanceChildren, rebalanceChildren]
    split
    · refine Le.bind (extract_mono P _ _ fuel c _) fun r => ?_
      refine Le.bind (Le.foldl h _ _) fun c' => ?_
      exact Le.bind (ih _) fun _ => Le.refl _
    · exact Le.bind (ih _) fun _ => Le.refl _

theorem rebalance_mono {ins ins' : CNode L Unit → CNode L Unit → Outcome (CNode L Unit)}
    (h : ∀ s x, Le (ins s x) (ins' s x)) (fuel : Nat) (parent node : CNode L Unit) :
    Le (rebalance B P dist ins fuel parent node) (rebalance B P dist ins' (fuel + 1) parent node) := by
  rw [rebalance, rebalance]
  refine Le.bind (rebalanceChildren_mono P dist h _ _ _ _ _) fun q => ?_
  exact Le.bind (Le.foldl h _ _) fun _ => Le.refl _

theorem insertCovered_mono (fuel : Nat) (tree node : CNode L Unit) :
    Le (insertCovered B P dist fuel tree node) (insertCovered B P dist (fuel + 1) tree node) := by
  induction fuel generalizing tree node with
  | zero => exact Or.inl rfl
  | succ fuel ih =>
    rw [insertCovered, insertCovered]
    split
    · exact Le.refl _
    · dsimp only
      split
      · exact Le.refl _
      · split
        · exact Le.bind (ih _ _) fun _ => Le.refl _
        · exact rebalance_mono B P dist ih fuel tree node

theorem raise_mono (level : L) (fuel : Nat) (tree : CNode L Unit) :
    Le (raise B level fuel tree) (raise B level (fuel + 1) tree) := by
  induction fuel generalizing tree with
  | zero => exact Or.inl rfl
  | succ fuel ih =>
    rw [raise, raise]
    split
    · exact Le.bind (Le.refl _) fun r => ih _
    · exact Le.refl _

mutual
theorem points_updateMaxDistance : ∀ t : CNode L Unit,
    Spec.points (updateMaxDistance dist t) = Spec.points t
  | .node i l m cs => by
    rw [updateMaxDistance, Spec.points, Spec.points, points_updateMaxDistanceList cs]

theorem points_updateMaxDistanceList : ∀ cs : List (CNode L Unit),
    Spec.pointsList (updateMaxDistanceList dist cs) = Spec.pointsList cs
  | [] => rfl
  | c :: cs => by
    rw [updateMaxDistanceList, Spec.pointsList, Spec.pointsList, points_updateMaxDistance c,
      points_updateMaxDistanceList cs]
end

variable [Add α]

theorem insert_mono (fuel : Nat) (tree node : CNode L Unit) :
    Le (insert B P dist fuel tree node) (insert B P dist (fuel + 1) tree node) := by
  rw [insert, insert]
  split
  · exact Le.bind (raise_mono B _ _ _) fun _ => Le.refl _
  · exact insertCovered_mono B P dist _ _ _

theorem insertAll_mono (indices : List Nat) (fuel : Nat) :
    Le (insertAll B P dist fuel indices) (insertAll B P dist (fuel + 1) indices) := by
  rw [insertAll, insertAll]
  refine Le.bind (Le.refl _) fun st => Le.bind (Le.foldl ?_ _ _) fun _ => Le.refl _
  intro s x
  exact Le.bind (Le.refl _) fun c => Le.bind (insert_mono B P dist _ _ _) fun _ => Le.refl _

theorem build_mono (indices : List Nat) (fuel : Nat) :
    Le (build B P dist fuel indices) (build B P dist (fuel + 1) indices) := by
  rw [build, build]
  exact Le.bind (insertAll_mono B P dist _ _) fun _ => Le.refl _

omit [Add α] in
/-- The first two nodes. -/
theorem insertFirstTwo_two (i j : Nat) (rest : List Nat) :
    insertFirstTwo B dist (i :: j :: rest).length (i :: j :: rest) =
      .ok (.node i (B.ceilLevel (dist i j)) ()
        [.node j (B.down (B.ceilLevel (dist i j))) () []], 2) := by
  simp [insertFirstTwo, createNode, bufferAllocate, Outcome.bind, pushChild, CNode.setLevel,
    CNode.setChildren, CNode.children, CNode.level]

theorem insertAll_two (fuel i j : Nat) (rest : List Nat) :
    insertAll B P dist fuel (i :: j :: rest) =
      (Outcome.foldl (fun (st : CNode L Unit × Nat) k =>
        (createNode B (i :: j :: rest).length st.2 k).bind fun c =>
        (insert B P dist fuel st.1 c.1).bind fun tree => .ok (tree, c.2))
        (.node i (B.ceilLevel (dist i j)) () [.node j (B.down (B.ceilLevel (dist i j))) () []], 2) rest).bind
        fun st => .ok st.1 := by
  rw [insertAll, insertFirstTwo_two]
  rfl

/-- The loop over the points after the second. `Q` is what is known of the tree between the insertions. -/
theorem insertLoop_spec (A : Prop) (fuel cap : Nat) (Q : CNode L Unit → Prop) (rest : List Nat)
    (tree : CNode L Unit) (used : Nat) (hc : used + rest.length ≤ cap) (h2 : 2 ≤ size tree) (hQ : Q tree)
    (hs : ∀ tree i, i ∈ rest → 2 ≤ size tree → Q tree →
      Sat A (insert B P dist fuel tree (.node i B.unset () [])) fun r => Q r ∧
        ∀ w, wt w r = wt w tree + w i) :
    Sat A (Outcome.foldl (fun (st : CNode L Unit × Nat) i =>
        (createNode B cap st.2 i).bind fun c =>
        (insert B P dist fuel st.1 c.1).bind fun tree => .ok (tree, c.2)) (tree, used) rest)
      fun st => Q st.1 ∧ st.2 = used + rest.length ∧ ∀ w, wt w st.1 = wt w tree + (rest.map w).sum := by
  refine (Sat.foldl (P := fun l st => (∀ i ∈ l, i ∈ rest) ∧ 2 ≤ size st.1 ∧ Q st.1 ∧
    st.2 + l.length = used + rest.length ∧
    ∀ w, wt w st.1 + (l.map w).sum = wt w tree + (rest.map w).sum) _ _ ?_ ?_).imp ?_
  · exact ⟨fun _ h => h, h2, hQ, rfl, fun _ => rfl⟩
  · rintro i l st ⟨h3, h4, h5, h6, h7⟩
    rw [List.length_cons] at h6
    refine Sat.bind (createNode_spec B A (by omega) i) ?_
    rintro c rfl
    refine Sat.bind (hs st.1 i (h3 i (by simp)) h4 h5) ?_
    rintro r ⟨h8, h9⟩
    refine Sat.ok ⟨fun k hk => h3 k (by simp [hk]), ?_, h8, by dsimp only; omega, fun w => ?_⟩
    · have := h9 fun _ => 1
      simp only [size] at *
      omega
    · have := h7 w
      have := h9 w
      simp only [List.map_cons, List.sum_cons] at *
      omega
  · rintro st ⟨-, -, h3, h4, h5⟩
    exact ⟨h3, by simpa using h4, fun w => by have := h5 w; simpa using this⟩

theorem perm_of_weights {l l' : List Nat} (h : ∀ w : Nat → Nat, (l.map w).sum = (l'.map w).sum) :
    l.Perm l' := by
  rw [List.perm_iff_count]
  intro a
  have key : ∀ l : List Nat, (l.map fun b => if b = a then 1 else 0).sum = l.count a := by
    intro l
    induction l with
    | nil => rfl
    | cons b l ih =>
      rw [List.map_cons, List.sum_cons, ih, List.count_cons]
      simp only [beq_iff_eq]
      omega
  rw [← key l, ← key l']
  exact h _

/-- Whatever happens, a finished insertion of all points has every point once. -/
theorem insertAll_points (fuel : Nat) (indices : List Nat) (h : indices ≠ []) :
    Sat True (insertAll B P dist fuel indices) fun t => (Spec.points t).Perm indices := by
  match indices, h with
  | [i], _ =>
    refine Or.inr ⟨.node i B.zero () [], ?_, ?_⟩
    · simp [insertAll, insertFirstTwo, createNode, bufferAllocate, Outcome.bind, Outcome.foldl, CNode.setLevel]
    · simp [Spec.points, Spec.pointsList]
  | i :: j :: rest, _ =>
    rw [insertAll_two]
    refine Sat.bind (insertLoop_spec B P dist True fuel _ (fun _ => True) rest _ 2 (by simp; omega)
      (by simp [size]) trivial ?_) ?_
    · intro tree i _ h2 _
      refine (insert_spec B P dist True fuel tree (.node i B.unset () []) rfl h2 (Or.inl trivial)).imp ?_
      rintro r ⟨-, h3, -⟩
      exact ⟨trivial, fun w => by rw [h3]; simp⟩
    · rintro st ⟨-, -, h3⟩
      refine Sat.ok (perm_of_weights fun w => ?_)
      have := h3 w
      simp only [wt_node, wtL_cons, wtL_nil] at this
      change wt w st.1 = _
      rw [this]
      simp [Nat.add_assoc]

mutual
theorem bufferCopy_ok (cap : Nat) : ∀ (t : CNode L Unit) (used : Nat), used + size t ≤ cap →
    bufferCopy cap t used = .ok (t, used + size t)
  | .node i l m cs, used, h => by
    simp only [size, wt_node] at h
    rw [bufferCopy, bufferAllocate, if_pos (by omega)]
    have := bufferCopyList_ok cap cs (used + 1) (by simp only [sizeL]; omega)
    simp only [Outcome.bind, this, size, sizeL, wt_node]
    congr 2
    omega

theorem bufferCopyList_ok (cap : Nat) : ∀ (cs : List (CNode L Unit)) (used : Nat), used + sizeL cs ≤ cap →
    bufferCopyList cap cs used = .ok (cs, used + sizeL cs)
  | [], used, _ => by simp [bufferCopyList]
  | c :: cs, used, h => by
    simp only [sizeL, wtL_cons] at h
    have h1 := bufferCopy_ok cap c used (by simp only [size]; omega)
    have h2 := bufferCopyList_ok cap cs (used + size c) (by simp only [size, sizeL]; omega)
    rw [bufferCopyList, h1]
    simp only [Outcome.bind, h2, size, sizeL, wtL_cons]
    congr 2
    omega
end

theorem size_eq_length {γ : Type} (t : CNode L γ) : size t = (Spec.points t).length := by
  simp [size, wt]

/-- A finished build has every point once. -/
theorem build_points (fuel : Nat) (indices : List Nat) (h : indices ≠ []) :
    Sat True (build B P dist fuel indices) fun t => (Spec.points t).Perm indices := by
  rw [build]
  refine Sat.bind (insertAll_points B P dist fuel indices h) fun t ht => ?_
  rw [bufferCopy_ok _ t 0 (by rw [size_eq_length, ht.length_eq]; omega)]
  refine Sat.ok ?_
  rw [points_updateMaxDistance]
  exact ht

/-- `build` finishes exactly when the insertions do. -/
theorem build_ok_iff (fuel : Nat) (indices : List Nat) (h : indices ≠ []) :
    (∃ t, build B P dist fuel indices = .ok t) ↔ ∃ t, insertAll B P dist fuel indices = .ok t := by
  rw [build]
  rcases insertAll_points B P dist fuel indices h with ⟨-, h1⟩ | ⟨t, h1, ht⟩
  · rw [h1]; simp [Outcome.bind]
  · rw [h1]
    simp only [Outcome.bind]
    rw [bufferCopy_ok _ t 0 (by rw [size_eq_length, ht.length_eq]; omega)]
    simp

end

/-! ### The recorded distances -/

/-- `m` is the largest distance from the point of the node to a point below. -/
def LargestBelow [LinearOrder α] (dist : Nat → Nat → α) (t : CNode L α) : Prop :=
  (∀ p ∈ Spec.points t, dist t.index p ≤ t.maxDistance) ∧ ∃ p ∈ Spec.points t, t.maxDistance = dist t.index p

section
variable [LinearOrder α]

theorem stdMax_eq (a b : α) : stdMax a b = max a b := by
  unfold stdMax
  split
  · rw [max_eq_right (by assumption : a < b).le]
  · rw [max_eq_left (not_lt.1 (by assumption))]

mutual
theorem maxDistance_spec (f : Nat → α) : ∀ t : CNode L Unit,
    (∀ p ∈ Spec.points t, f p ≤ maxDistance f t) ∧ ∃ p ∈ Spec.points t, maxDistance f t = f p
  | .node i l m cs => by
    rw [maxDistance, Spec.points]
    obtain ⟨h1, h2, h3⟩ := maxDistanceList_spec f (f i) cs
    refine ⟨?_, ?_⟩
    · intro p hp
      rcases List.mem_cons.1 hp with rfl | hp
      exacts [h1, h2 p hp]
    · rcases h3 with h3 | ⟨p, hp, h3⟩
      · exact ⟨i, by simp, h3⟩
      · exact ⟨p, by simp [hp], h3⟩

theorem maxDistanceList_spec (f : Nat → α) : ∀ (acc : α) (cs : List (CNode L Unit)),
    acc ≤ maxDistanceList f acc cs ∧ (∀ p ∈ Spec.pointsList cs, f p ≤ maxDistanceList f acc cs) ∧
      (maxDistanceList f acc cs = acc ∨ ∃ p ∈ Spec.pointsList cs, maxDistanceList f acc cs = f p)
  | acc, [] => by simp [maxDistanceList, Spec.pointsList]
  | acc, c :: cs => by
    rw [maxDistanceList, Spec.pointsList, stdMax_eq]
    obtain ⟨h1, h2⟩ := maxDistance_spec f c
    obtain ⟨h3, h4, h5⟩ := maxDistanceList_spec f (max acc (maxDistance f c)) cs
    refine ⟨(le_max_left _ _).trans h3, ?_, ?_⟩
    · intro p hp
      rcases List.mem_append.1 hp with hp | hp
      · exact ((h1 p hp).trans (le_max_right _ _)).trans h3
      · exact h4 p hp
    · rcases h5 with h5 | ⟨p, hp, h5⟩
      · rcases le_total acc (maxDistance f c) with h | h
        · obtain ⟨p, hp, h2⟩ := h2
          exact Or.inr ⟨p, by simp [hp], by rw [h5, max_eq_right h, h2]⟩
        · exact Or.inl (by rw [h5, max_eq_left h])
      · exact Or.inr ⟨p, by simp [hp], h5⟩
end

mutual
theorem updateMaxDistance_spec (dist : Nat → Nat → α) : ∀ t : CNode L Unit,
    Spec.Everywhere (LargestBelow dist) (updateMaxDistance dist t)
  | .node i l m cs => by
    rw [updateMaxDistance, Spec.Everywhere]
    refine ⟨?_, updateMaxDistanceList_spec dist cs⟩
    have h := maxDistance_spec (dist i) (.node i l m cs)
    have e : Spec.points (.node i l (maxDistance (dist i) (.node i l m cs)) (updateMaxDistanceList dist cs)) =
        Spec.points (.node i l m cs) := by
      rw [Spec.points, Spec.points, points_updateMaxDistanceList]
    rw [LargestBelow, e]
    exact h

theorem updateMaxDistanceList_spec (dist : Nat → Nat → α) : ∀ cs : List (CNode L Unit),
    Spec.EverywhereList (LargestBelow dist) (updateMaxDistanceList dist cs)
  | [] => trivial
  | c :: cs => ⟨updateMaxDistance_spec dist c, updateMaxDistanceList_spec dist cs⟩
end

/-- In a finished build every node records the largest distance to its descendants. -/
theorem build_largest [Add α] (B : Leveling α L) (P : StdPart (CNode L Unit)) (dist : Nat → Nat → α)
    (fuel : Nat) (indices : List Nat) {t : CNode L α} (h : build B P dist fuel indices = .ok t) :
    Spec.Everywhere (LargestBelow dist) t := by
  rw [build] at h
  cases h1 : insertAll B P dist fuel indices with
  | ok a =>
    rw [h1] at h
    simp only [Outcome.bind] at h
    cases h2 : bufferCopy indices.length a 0 with
    | ok r =>
      rw [h2] at h
      cases h
      exact updateMaxDistance_spec dist r.1
    | ub => rw [h2] at h; cases h
    | oof => rw [h2] at h; cases h
  | ub => rw [h1] at h; cases h
  | oof => rw [h1] at h; cases h

end

end Cover

end Pico
