import Verif.Model.Matrix
import Mathlib.Tactic.Ring
import Mathlib.Tactic.Linarith
import Mathlib.Data.Fin.VecNotation

/-!
# C88: the rotated copy of the points
-/

set_option linter.unusedSectionVars false

namespace Pico.Props

open Pico

section
variable {α : Type} [Zero α] [One α] [Add α] [Sub α] [Mul α] {d : Nat}

theorem foldlM_read (f : α → Fin d → α → α) (g : Fin d → Option α) (x : Pt α d) (l : List (Fin d))
    (hg : ∀ i ∈ l, g i = some (x i)) (acc : α) :
    l.foldlM (fun a i => (g i).map (f a i)) acc = some (l.foldl (fun a i => f a i (x i)) acc) := by
  induction l generalizing acc with
  | nil => rfl
  | cons a l ih =>
    rw [List.foldlM_cons, hg a List.mem_cons_self, List.foldl_cons]
    exact ih (fun i hi => hg i (List.mem_cons_of_mem _ hi)) _

theorem rotateWrite_spec {read : List α → Fin d → Option α} {r : Pt α d} {py : Nat} {dot : α}
    (hindep : ∀ mem i i' v, i ≠ i' → read (mem.set (py + i.1) v) i' = read mem i')
    (x : Pt α d) (l : List (Fin d)) (hl : l.Nodup) (mem : List α) (hx : ∀ i ∈ l, read mem i = some (x i))
    (hlen : py + d ≤ mem.length) :
    ∃ mem', l.foldlM (fun mem i => (read mem i).bind fun x =>
        if py + i.1 < mem.length then some (mem.set (py + i) (x - dot * r i)) else none) mem = some mem' ∧
      mem'.length = mem.length ∧ (∀ i ∈ l, mem'[py + i.1]? = some (x i - dot * r i)) ∧
      ∀ p, (∀ i ∈ l, p ≠ py + i.1) → mem'[p]? = mem[p]? := by
  induction l generalizing mem with
  | nil => exact ⟨mem, rfl, rfl, by simp, fun _ _ => rfl⟩
  | cons a l ih =>
    rw [List.nodup_cons] at hl
    have ha : py + a.1 < mem.length := by have := a.2; omega
    obtain ⟨mem', h1, h2, h3, h4⟩ := ih hl.2 (mem.set (py + a.1) (x a - dot * r a)) (by
      intro i hi
      rw [hindep mem a i _ (fun e => hl.1 (e.symm ▸ hi))]
      exact hx i (List.mem_cons_of_mem _ hi)) (by rw [List.length_set]; exact hlen)
    refine ⟨mem', ?_, by rw [h2, List.length_set], ?_, ?_⟩
    · rw [List.foldlM_cons, hx a List.mem_cons_self]
      simp only [Option.bind_some, if_pos ha]
      exact h1
    · intro i hi
      rcases List.mem_cons.1 hi with rfl | hi
      · rw [h4]
        · exact List.getElem?_set_self ha
        · intro i' hi' e
          have : i'.1 = i.1 := by omega
          exact hl.1 (Fin.ext this ▸ hi')
      · exact h3 i hi
    · intro p hp
      rw [h4 p fun i hi => hp i (List.mem_cons_of_mem _ hi)]
      exact List.getElem?_set_ne (Ne.symm (hp a List.mem_cons_self))

/-- `rotate_point` with an input that is not disturbed by the writes. -/
theorem rotateInto_spec {read : List α → Fin d → Option α} {r : Pt α d} {py : Nat}
    (hindep : ∀ mem i i' v, i ≠ i' → read (mem.set (py + i.1) v) i' = read mem i')
    (x : Pt α d) (mem : List α) (hx : ∀ i, read mem i = some (x i)) (hlen : py + d ≤ mem.length) :
    ∃ mem', rotateInto read r py mem = some mem' ∧ mem'.length = mem.length ∧
      (∀ i : Fin d, mem'[py + i.1]? = some (rotatePoint r x i)) ∧
      ∀ p, (p < py ∨ py + d ≤ p) → mem'[p]? = mem[p]? := by
  have e : rotateDot read r mem = some (loopSum (fun i => r i * x i) * (1 + 1)) := by
    unfold rotateDot loopSum
    rw [foldlM_read (fun a i y => a + r i * y) (read mem) x _ (fun i _ => hx i)]
    rfl
  obtain ⟨mem', h1, h2, h3, h4⟩ := rotateWrite_spec (r := r) (dot := loopSum (fun i => r i * x i) * (1 + 1))
    hindep x (List.finRange d) (List.nodup_finRange d) mem (fun i _ => hx i) hlen
  refine ⟨mem', ?_, h2, fun i => h3 i (List.mem_finRange i), fun p hp => h4 p fun i _ => ?_⟩
  · unfold rotateInto rotateWrite
    rw [e]
    exact h1
  · have := i.2
    omega

/-- C88 (one point): "in and out can be the same point". Input at `px` and output at `py` in one block of memory,
the same or disjoint: the output is the reflected point, nothing else is written and nothing outside of the block is
touched. -/
theorem c88_point (r : Pt α d) (px py : Nat) (mem : List α) (x : Pt α d)
    (hx : ∀ i : Fin d, mem[px + i.1]? = some (x i)) (hpy : py + d ≤ mem.length)
    (hsep : px = py ∨ px + d ≤ py ∨ py + d ≤ px) :
    ∃ mem', rotateInto (fun m i => m[px + i.1]?) r py mem = some mem' ∧ mem'.length = mem.length ∧
      (∀ i : Fin d, mem'[py + i.1]? = some (rotatePoint r x i)) ∧
      ∀ p, (p < py ∨ py + d ≤ p) → mem'[p]? = mem[p]? := by
  refine rotateInto_spec (fun m i i' v hne => List.getElem?_set_ne ?_) x mem hx hpy
  have h1 := i.2
  have h2 := i'.2
  have h3 : i.1 ≠ i'.1 := fun e => hne (Fin.ext e)
  omega

/-- C88 (all points): `rotate_space` fills the whole matrix with the reflected points, one row for each point in
order, and never leaves its memory. -/
theorem c88_space (r : Pt α d) (pts : Nat → Pt α d) (n : Nat) :
    ∃ s, rotateSpace r pts n = some s ∧ s.size = n ∧ s.sdim = d ∧ s.elems.length = n * d ∧
      ∀ i < n, ∀ j : Fin d, s.coord i j = some (rotatePoint r (pts i) j) := by
  have key : ∀ k ≤ n, ∃ s, (List.range k).foldlM (fun s i =>
      (rotateInto (fun _ j => some (pts i j)) r (s.data i) s.elems).map fun e =>
        ({ s with elems := e } : MatrixSpace α)) (MatrixSpace.new n d) = some s ∧
      s.size = n ∧ s.sdim = d ∧ s.elems.length = n * d ∧
      ∀ i < k, ∀ j : Fin d, s.coord i j = some (rotatePoint r (pts i) j) := by
    intro k
    induction k with
    | zero =>
      intro _
      exact ⟨_, rfl, rfl, rfl, by simp [MatrixSpace.new], fun i hi => absurd hi (by omega)⟩
    | succ k ih =>
      intro hk
      obtain ⟨s, h1, h2, h3, h4, h5⟩ := ih (by omega)
      have hin : s.data k + d ≤ s.elems.length := by
        unfold MatrixSpace.data
        rw [h3, h4]
        calc k * d + d = (k + 1) * d := by ring
          _ ≤ n * d := Nat.mul_le_mul_right _ hk
      obtain ⟨e, g1, g2, g3, g4⟩ := rotateInto_spec (r := r) (read := fun _ j => some (pts k j)) (py := s.data k)
        (fun _ _ _ _ _ => rfl) (pts k) s.elems (fun _ => rfl) hin
      refine ⟨{ s with elems := e }, ?_, h2, h3, by rw [← h4]; exact g2, ?_⟩
      · rw [List.range_succ, List.foldlM_append, h1]
        simp [g1]
      · intro i hi j
        rcases Nat.lt_succ_iff_lt_or_eq.1 hi with hi | rfl
        · change e[i * s.sdim + j.1]? = _
          rw [g4]
          · exact h5 i hi j
          · left
            unfold MatrixSpace.data
            rw [h3]
            have hj := j.2
            calc i * d + j.1 < i * d + d := by omega
              _ = (i + 1) * d := by ring
              _ ≤ k * d := Nat.mul_le_mul_right _ hi
        · exact g3 j
  exact key n le_rfl

/-- C88 (overlap): for input and output that overlap without being the same the loops would be wrong; no caller
does this. -/
example : rotateInto (α := Int) (d := 2) (fun m i => m[0 + i.1]?) ![1, 1] 1 [1, 2, 3] = some [1, -5, -11] ∧
    rotatePoint (α := Int) (d := 2) ![1, 1] ![1, 2] 1 = -4 := by
  decide +kernel

end

/-- In place: the reflection exchanges the signs along the axis `(3/5, 4/5)`. -/
example : rotateInto (α := ℚ) (d := 2) (fun m i => m[1 + i.1]?) ![3/5, 4/5] 1 [7, 3, 4, 9] = some [7, -3, -4, 9] := by
  decide +kernel

/-- Three points of dimension two. -/
example : (rotateSpace (α := Int) (d := 2) ![1, 0] (fun i => ![(i : Int), 5]) 3).map (·.elems) =
    some [0, 5, -1, 5, -2, 5] := by
  decide +kernel

end Pico.Props
