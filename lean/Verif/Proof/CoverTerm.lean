import Verif.Proof.CoverBuild
import Mathlib.Algebra.Order.Group.Defs

/-! # When the construction of a cover tree finishes -/

set_option linter.unusedSectionVars false

namespace Pico

namespace Leveling
variable {α L : Type} [LinearOrder α] [Zero α]

/-- Levels satisfying `Fin` are finite: adding one often enough reaches every level. -/
structure Grows (B : Leveling α L) (Fin : L → Prop) : Prop where
  up : ∀ l, Fin l → Fin (B.up l)
  reach : ∀ l m, Fin l → ∃ k, B.lt (B.up^[k] l) m = false
  ceil : ∀ d, 0 < d → Fin (B.ceilLevel d)

/-- `bot` is the level of distance zero, minus infinity. -/
structure Bottom (B : Leveling α L) (bot : L) : Prop where
  ceil : B.ceilLevel 0 = bot
  up : B.up bot = bot
  cover : B.cover bot = 0
  lt : ∀ d, 0 < d → B.lt bot (B.floorLevel d) = true

end Leveling

namespace Cover
open Outcome (Sat Le)

variable {α L : Type} [LinearOrder α] [AddCommGroup α] [IsOrderedAddMonoid α]
variable (B : Leveling α L) (P : StdPart (CNode L Unit)) (dist : Nat → Nat → α)

theorem iterate_fin {Fin : L → Prop} (h : ∀ l, Fin l → Fin (B.up l)) (k : Nat) {l : L} (hl : Fin l) :
    Fin (B.up^[k] l) := by
  induction k generalizing l with
  | zero => exact hl
  | succ k ih => rw [Function.iterate_succ_apply]; exact ih (h l hl)

/-- One insertion into a tree of finite level. -/
theorem insert_finishes {Fin : L → Prop} (hB : B.Grows Fin) (tree node : CNode L Unit)
    (hn : node.children = []) (h2 : 2 ≤ size tree) (hf : Fin tree.level) :
    ∃ F, ∀ fuel, F ≤ fuel → Sat False (insert B P dist fuel tree node) fun r => Fin r.level ∧
      ∀ w, wt w r = wt w tree + wt w node := by
  obtain ⟨k, hk⟩ := hB.reach tree.level
    (B.floorLevel (B.cover tree.level + dist node.index tree.index)) hf
  refine ⟨max (size tree) k + 1, fun fuel hF => ?_⟩
  refine (insert_spec B P dist False fuel tree node hn h2 (Or.inr ⟨?_, fun _ => ⟨k, ?_, hk⟩⟩)).imp ?_
  · have := le_max_left (size tree) k; omega
  · have := le_max_right (size tree) k; omega
  · rintro r ⟨⟨k', hk'⟩, h3, -⟩
    exact ⟨by rw [hk']; exact iterate_fin B hB.up k' hf, h3⟩

/-- The loop over further points, starting from a finite level. -/
theorem insertLoop_finishes {Fin : L → Prop} (hB : B.Grows Fin) (cap : Nat) (rest : List Nat)
    (tree : CNode L Unit) (used : Nat) (hc : used + rest.length ≤ cap) (h2 : 2 ≤ size tree)
    (hf : Fin tree.level) :
    ∃ F, ∀ fuel, F ≤ fuel → ∃ r, Outcome.foldl (fun (st : CNode L Unit × Nat) i =>
        (createNode B cap st.2 i).bind fun c =>
        (insert B P dist fuel st.1 c.1).bind fun tree => .ok (tree, c.2)) (tree, used) rest = .ok r := by
  induction rest generalizing tree used with
  | nil => exact ⟨0, fun fuel _ => ⟨_, rfl⟩⟩
  | cons i rest ih =>
    rw [List.length_cons] at hc
    obtain ⟨F1, hF1⟩ := insert_finishes B P dist hB tree (.node i B.unset () []) rfl h2 hf
    obtain ⟨t, ht, hft, hw⟩ := (hF1 F1 le_rfl).exists
    obtain ⟨F2, hF2⟩ := ih t (used + 1) (by omega)
      (by have := hw fun _ => 1; simp only [size] at *; omega) hft
    refine ⟨max F1 F2, fun fuel hF => ?_⟩
    have h1 : insert B P dist fuel tree (.node i B.unset () []) = .ok t :=
      (Outcome.mono_le (fun n => insert_mono B P dist n tree (.node i B.unset () []))
        ((le_max_left F1 F2).trans hF)).ok ht
    have h3 : createNode B cap used i = .ok ((.node i B.unset () [] : CNode L Unit), used + 1) := by
      rw [createNode, bufferAllocate, if_pos (by omega)]; rfl
    obtain ⟨r, hr⟩ := hF2 fuel ((le_max_right F1 F2).trans hF)
    refine ⟨r, ?_⟩
    simp only [Outcome.foldl, h3, Outcome.bind, h1]
    exact hr

/-- The first two points are apart: the build finishes. -/
theorem insertAll_finishes {Fin : L → Prop} (hB : B.Grows Fin) (i j : Nat) (rest : List Nat)
    (hij : 0 < dist i j) :
    ∃ F t, ∀ fuel, F ≤ fuel → insertAll B P dist fuel (i :: j :: rest) = .ok t := by
  obtain ⟨F, hF⟩ := insertLoop_finishes B P dist hB (i :: j :: rest).length rest
    (.node i (B.ceilLevel (dist i j)) () [.node j (B.down (B.ceilLevel (dist i j))) () []]) 2
    (by simp; omega) (by simp [size]) (hB.ceil _ hij)
  obtain ⟨r, hr⟩ := hF F le_rfl
  have h0 : insertAll B P dist F (i :: j :: rest) = .ok r.1 := by
    rw [insertAll_two]
    rw [hr]; rfl
  exact ⟨F, r.1, fun fuel hf => (Outcome.mono_le (fun n => insertAll_mono B P dist _ n) hf).ok h0⟩

/-- Insertion of a copy of the root into a tree at the level minus infinity. -/
theorem insert_copy {bot : L} (hB : B.Bottom bot) (A : Prop) (fuel : Nat) (tree : CNode L Unit) (k : Nat)
    (h2 : 2 ≤ size tree) (hl : tree.level = bot) (hk : dist k tree.index = 0)
    (hA : A ∨ size tree < fuel) :
    Sat A (insert B P dist fuel tree (.node k B.unset () [])) fun r => r.index = tree.index ∧
      r.level = bot ∧ ∀ w, wt w r = wt w tree + w k := by
  have hd : ¬ dist k tree.index > B.cover tree.level := by
    rw [hl, hB.cover, hk]; exact lt_irrefl _
  refine (insert_spec B P dist A fuel tree (.node k B.unset () []) rfl h2
    (hA.imp_right fun h => ⟨h, fun h' => absurd h' hd⟩)).imp ?_
  rintro r ⟨-, h3, h4⟩
  obtain ⟨h5, h6⟩ := h4 hd
  exact ⟨h5, h6.trans hl, fun w => by rw [h3]; simp⟩

/-- The loop over copies of the first point, where the first two coincide. -/
theorem insertLoop_copies {bot : L} (hB : B.Bottom bot) (A : Prop) (fuel cap : Nat) (rest : List Nat)
    (tree : CNode L Unit) (used : Nat) (hc : used + rest.length ≤ cap) (h2 : 2 ≤ size tree)
    (hl : tree.level = bot) (hk : ∀ k ∈ rest, dist k tree.index = 0)
    (hA : A ∨ size tree + rest.length ≤ fuel) :
    Sat A (Outcome.foldl (fun (st : CNode L Unit × Nat) i =>
        (createNode B cap st.2 i).bind fun c =>
        (insert B P dist fuel st.1 c.1).bind fun tree => .ok (tree, c.2)) (tree, used) rest)
      fun st => st.1.index = tree.index ∧ st.1.level = bot ∧ 2 ≤ size st.1 ∧ st.2 = used + rest.length := by
  refine (Sat.foldl (P := fun l st => (∀ i ∈ l, i ∈ rest) ∧ 2 ≤ size st.1 ∧ st.1.index = tree.index ∧
    st.1.level = bot ∧ st.2 + l.length = used + rest.length ∧ (A ∨ size st.1 + l.length ≤ fuel)) _ _
    ?_ ?_).imp ?_
  · exact ⟨fun _ h => h, h2, rfl, hl, rfl, hA⟩
  · rintro i l st ⟨h3, h4, h5, h6, h7, h8⟩
    rw [List.length_cons] at h7
    refine Sat.bind (createNode_spec B A (by omega) i) ?_
    rintro c rfl
    refine Sat.bind (insert_copy B P dist hB A fuel st.1 i h4 h6 (by rw [h5]; exact hk i (h3 i (by simp)))
      (h8.imp_right fun h => by rw [List.length_cons] at h; omega)) ?_
    rintro r ⟨h9, h10, h11⟩
    have h12 := h11 fun _ => 1
    refine Sat.ok ⟨fun k hk => h3 k (by simp [hk]), ?_, h9.trans h5, h10, by dsimp only; omega,
      h8.imp_right fun h => ?_⟩
    · simp only [size] at *; omega
    · simp only [size, List.length_cons] at *; omega
  · rintro st ⟨-, h3, h4, h5, h6, -⟩
    exact ⟨h4, h5, h3, by simpa using h6⟩

/-- All points coincide with the first one: the build finishes. -/
theorem insertAll_copies {bot : L} (hB : B.Bottom bot) (i j : Nat) (rest : List Nat) (hij : dist i j = 0)
    (hr : ∀ k ∈ rest, dist k i = 0) :
    ∃ F t, ∀ fuel, F ≤ fuel → insertAll B P dist fuel (i :: j :: rest) = .ok t := by
  have h0 := insertLoop_copies B P dist hB False (2 + rest.length) (i :: j :: rest).length rest
    (.node i (B.ceilLevel (dist i j)) () [.node j (B.down (B.ceilLevel (dist i j))) () []]) 2
    (by simp; omega) (by simp [size]) (by rw [hij]; exact hB.ceil) hr (Or.inr (by simp [size]))
  obtain ⟨r, hr, -⟩ := h0.exists
  have h1 : insertAll B P dist (2 + rest.length) (i :: j :: rest) = .ok r.1 := by
    rw [insertAll_two]
    rw [hr]; rfl
  exact ⟨_, r.1, fun fuel hf => (Outcome.mono_le (fun n => insertAll_mono B P dist _ n) hf).ok h1⟩

/-- At the level minus infinity the loop of `insert` never ends. -/
theorem raise_never {bot : L} (hB : B.Bottom bot) (d : α) (hd : 0 < d) (fuel : Nat) (tree : CNode L Unit)
    (h2 : 2 ≤ size tree) (hl : tree.level = bot) : raise B (B.floorLevel d) fuel tree = .oof := by
  induction fuel generalizing tree with
  | zero => rfl
  | succ fuel ih =>
    rw [raise, hl, if_pos (hB.lt d hd)]
    have hne : tree.children ≠ [] := by
      intro h0
      have := wt_eq (fun _ => 1) tree
      rw [h0] at this
      simp only [size, wtL_nil] at *
      omega
    obtain ⟨leaf, t', h1, h3, h4, h5, h6⟩ := removeLeaf_spec tree hne
    rw [h1]
    refine ih (nodeToParent B leaf t') ?_ ?_
    · simp only [size] at h2 ⊢
      rw [wt_nodeToParent, h6]; exact h2
    · simp [nodeToParent, h4, hl, hB.up]

theorem foldl_append {σ τ : Type} (f : σ → τ → Outcome σ) (s : σ) (a b : List τ) :
    Outcome.foldl f s (a ++ b) = (Outcome.foldl f s a).bind fun s => Outcome.foldl f s b := by
  induction a generalizing s with
  | nil => rfl
  | cons x a ih =>
    simp only [List.cons_append, Outcome.foldl]
    cases f s x with
    | ok t => exact ih t
    | ub => rfl
    | oof => rfl

/-- The first two points coincide and a later one differs: the build never finishes. -/
theorem insertAll_never {bot : L} (hB : B.Bottom bot) (i j : Nat) (rest : List Nat) (hij : dist i j = 0)
    (hnn : ∀ k ∈ rest, 0 ≤ dist k i) (hr : ¬ ∀ k ∈ rest, dist k i = 0) (fuel : Nat) :
    insertAll B P dist fuel (i :: j :: rest) = .oof := by
  -- the first point that differs
  have hsplit : ∃ pre k post, rest = pre ++ k :: post ∧ (∀ x ∈ pre, dist x i = 0) ∧ dist k i ≠ 0 := by
    clear hnn
    induction rest with
    | nil => exact absurd (by simp) hr
    | cons x rest ih =>
      by_cases hx : dist x i = 0
      · obtain ⟨pre, k, post, h1, h2, h3⟩ := ih fun h => hr fun k hk => by
          rcases List.mem_cons.1 hk with rfl | hk
          exacts [hx, h k hk]
        exact ⟨x :: pre, k, post, by simp [h1], fun y hy => by
          rcases List.mem_cons.1 hy with rfl | hy
          exacts [hx, h2 y hy], h3⟩
      · exact ⟨[], x, rest, rfl, by simp, hx⟩
  obtain ⟨pre, k, post, rfl, hpre, hk⟩ := hsplit
  have hkpos : 0 < dist k i := lt_of_le_of_ne (hnn k (by simp)) (Ne.symm hk)
  rw [insertAll_two, foldl_append]
  rcases insertLoop_copies B P dist hB True fuel (i :: j :: (pre ++ k :: post)).length pre
    (.node i (B.ceilLevel (dist i j)) () [.node j (B.down (B.ceilLevel (dist i j))) () []]) 2
    (by simp; omega) (by simp [size]) (by rw [hij]; exact hB.ceil) hpre (Or.inl trivial) with
    ⟨-, h⟩ | ⟨st, h, h1, h2, h3, h4⟩
  · rw [h]; rfl
  · rw [h]
    have hc : createNode B (i :: j :: (pre ++ k :: post)).length st.2 k =
        .ok ((.node k B.unset () [] : CNode L Unit), st.2 + 1) := by
      rw [createNode, bufferAllocate, if_pos (by rw [h4]; simp; omega)]; rfl
    have hi : insert B P dist fuel st.1 (.node k B.unset () []) = .oof := by
      have e1 : dist (CNode.node k B.unset () [] : CNode L Unit).index st.1.index = dist k i := by
        rw [h1]; rfl
      rw [insert]
      simp only [e1, h2, hB.cover, zero_add]
      rw [if_pos hkpos, raise_never B hB _ hkpos fuel st.1 h3 h2]
      rfl
    simp only [Outcome.bind, Outcome.foldl, hc, hi]

/-- When the insertion of all points finishes. -/
theorem insertAll_iff {Fin : L → Prop} {bot : L} (hG : B.Grows Fin) (hB : B.Bottom bot) (i j : Nat)
    (rest : List Nat) (hij : 0 ≤ dist i j) (hnn : ∀ k ∈ rest, 0 ≤ dist k i) :
    (∃ fuel t, insertAll B P dist fuel (i :: j :: rest) = .ok t) ↔
      (dist i j = 0 → ∀ k ∈ rest, dist k i = 0) := by
  constructor
  · rintro ⟨fuel, t, h⟩ h0
    by_contra hr
    rw [insertAll_never B P dist hB i j rest h0 hnn hr fuel] at h
    cases h
  · intro h
    rcases hij.lt_or_eq with hlt | heq
    · obtain ⟨F, t, ht⟩ := insertAll_finishes B P dist hG i j rest hlt
      exact ⟨F, t, ht F le_rfl⟩
    · obtain ⟨F, t, ht⟩ := insertAll_copies B P dist hB i j rest heq.symm (h heq.symm)
      exact ⟨F, t, ht F le_rfl⟩

end Cover

end Pico
