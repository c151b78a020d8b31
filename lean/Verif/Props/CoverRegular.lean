import Verif.Proof.CoverRegular
import Verif.Props.CoverInv

/-!
# C103: the regular nearest ancestor cover tree of the examples
-/

namespace Pico.Props

open Pico Spec

/-! ### C103 -/

section
variable {α L : Type} [LinearOrder α] [Mul α]

/-- C103 (partial): whatever the arithmetic of distances and levels, the implementation of `std::partition` and the
insertion order, a build that finishes places every point in exactly one node, and every node records the largest
distance from its point to a point below. Missing: a build may be undefined behaviour, see `c103_false`. -/
theorem c103_partial (B : Leveling α L) (P : StdPart (CNode L Unit)) (dist : Nat → Nat → α) (value : α) (fuel : Nat)
    (indices : List Nat) (h : indices ≠ []) {t : CNode L α}
    (ht : Cover.buildRegular B P dist value fuel indices = .ok t) :
    (points t).Perm indices ∧ Everywhere (fun c => (∀ p ∈ points c, dist c.index p ≤ c.maxDistance) ∧
      ∃ p ∈ points c, c.maxDistance = dist c.index p) t :=
  Cover.buildRegular_sound B P dist value fuel indices h t ht

/-- C103 (growing the root, partial): a node outside of the covering distance of the root becomes the new root. The root
it gets as a child lies within the covering distance of the new level, and was not raised farther than needed: it is the
old root, or the one before it was too far away. In exact arithmetic `value` times a covering distance is the one of the
next level. Missing: the covering of all descendants, see `c103_covers_false`. -/
theorem c103_root_partial (B : Leveling α L) (P : StdPart (CNode L Unit)) (dist : Nat → Nat → α) (value : α)
    (hv : ∀ l, B.cover l * value = B.cover (B.up l)) (fuel : Nat) (tree node : CNode L Unit)
    (hfar : B.cover tree.level < dist node.index tree.index) {r : CNode L Unit}
    (h : Cover.insertRegular B P dist value fuel tree node = .ok r) :
    ∃ t, r.index = node.index ∧ r.children = node.children ++ [t] ∧ r.level = B.up t.level ∧
      dist r.index t.index ≤ B.cover r.level ∧
      (t = tree ∨ ∃ s leaf rest, Cover.removeLeaf s = .ok (leaf, rest) ∧ t.index = leaf.index ∧
        t.level = B.up rest.level ∧ B.cover (B.up s.level) < dist node.index s.index) := by
  cases fuel with
  | zero => cases h
  | succ fuel =>
    rw [Cover.insertRegular, if_pos hfar] at h
    cases hr : Cover.raiseRegular B dist node.index fuel (B.cover tree.level * value) tree with
    | ub => rw [hr] at h; cases h
    | oof => rw [hr] at h; cases h
    | ok t =>
      rw [hr] at h
      cases h
      obtain ⟨h1, h2⟩ := Cover.raiseRegular_stops B dist node.index fuel _ tree (hv _) t hr
      refine ⟨t, ?_, ?_, ?_, ?_, ?_⟩
      · cases node; rfl
      · cases node; rfl
      · cases node; rfl
      · cases node; exact h1
      · rcases h2 with h2 | ⟨s, leaf, rest, h2, h3, h4⟩
        · exact .inl h2
        · refine .inr ⟨s, leaf, rest, h2, ?_, ?_, h4⟩
          · subst h3; cases leaf; rfl
          · subst h3; cases leaf; rfl

end

section
variable {K : Type} [Field K] [LinearOrder K] [IsStrictOrderedRing K] {d : Nat} {L : Type}
variable (B : Leveling K L) (P : StdPart (CNode L Unit)) (value : K) (M : Metric K d) (N : Num K)
variable (pts : Nat → Pt K d) (n : Nat) (hn : 0 < n) (indices : List Nat) (hi : indices.Perm (List.range n))
variable (fuel : Nat) {T : CoverTree K d L} (hT : CoverTree.makeRegular B P value M N pts n indices fuel = .ok T)
variable (sorter : StdSort (CNode L K × K)) (fuel' : Nat) (hf : n ≤ fuel') (q : Pt K d)
variable (htri : ∀ m < n, ∀ p < n, M.dist q (pts m) ≤ M.dist q (pts p) + M.dist (pts m) (pts p))
include hn hi hT hf htri

/-- C103 (nearest neighbor, partial): on a tree that the regular builder has produced, for whatever leveling, base and
insertion order, `search_nn` finishes and returns a nearest neighbor. Missing: see `c103_false`. -/
theorem c103_nn_partial (hbig : ∀ i < n, M.dist q (pts i) < N.big) (nn : Neighbor K) :
    ∃ r, T.searchNn sorter fuel' q nn = .ok r ∧ IsNN n (fun i => M.dist q (pts i)) r :=
  CoverTree.Made.nn hn (CoverTree.makeRegular_sound B P value M N pts n hn indices hi fuel hT) sorter fuel' hf q htri
    hbig nn

/-- C103 (k nearest neighbors, partial). -/
theorem c103_knn_partial (hbig : ∀ i < n, M.dist q (pts i) < N.big) (k : Nat) (hk : 0 < k)
    (knn : List (Neighbor K)) :
    ∃ out, T.searchKnn sorter fuel' q k knn = .ok out ∧ IsKnn n k (fun i => M.dist q (pts i)) out :=
  CoverTree.Made.knn hn (CoverTree.makeRegular_sound B P value M N pts n hn indices hi fuel hT) sorter fuel' hf q htri
    hbig k hk knn

/-- C103 (radius, partial). -/
theorem c103_radius_partial (sorter' : StdSort (Neighbor K)) (r : K) (l : List (Neighbor K)) (sort : Bool) :
    ∃ out, T.searchRadius sorter fuel' sorter' q r l sort = .ok out ∧
      IsRadius n (fun i => M.dist q (pts i)) r out ∧
      (sort = true → out.Pairwise fun a b => a.distance ≤ b.distance) :=
  CoverTree.Made.radius hn (CoverTree.makeRegular_sound B P value M N pts n hn indices hi fuel hT) sorter fuel' hf q
    htri sorter' r l sort

end

/-- Points of the plane. -/
def onPlane (l : List (ℚ × ℚ)) : Nat → Pt ℚ 2 := fun i => ![(l.getD i 0).1, (l.getD i 0).2]

/-- The regular cover tree of points of the plane with base two and `metric_l1`, inserted one after the other. -/
def regularPlane (l : List (ℚ × ℚ)) (fuel : Nat) : Outcome (CoverTree ℚ 2 (WithBot ℤ)) :=
  CoverTree.makeRegular base2 (stablePart _) 2 (metricL1 ℚ 2) Ref.ratNum (onPlane l) l.length (List.range l.length) fuel

/-- Eight different points of the plane. -/
def planeBad : List (ℚ × ℚ) :=
  [(28, 89), (26, 212), (17, -146), (-182, -120), (-259, -294), (-81, -96), (-119, -1), (-283, 2)]

/-- C103 is false: the construction of the regular cover tree can be undefined behaviour. Here `rebalance` inserts a
stripped node into a child that is a leaf by now and farther away than twice its covering distance, so that
`remove_leaf` is called for a leaf (internal/cover_tree_builder.hpp:133, 75-88). Base two, a metric, different points. -/
theorem c103_false : planeBad.Nodup ∧ ∃ fuel, regularPlane planeBad fuel = .ub := by
  refine ⟨by decide +kernel, 40, ?_⟩
  have h : (match regularPlane planeBad 40 with | .ub => true | _ => false) = true := by decide +kernel
  revert h
  cases regularPlane planeBad 40 <;> simp

/-! ### The invariants -/

/-- The regular tree of points on a line with base two, inserted one after the other. -/
def regularLine (l : List ℚ) : Outcome (CNode (WithBot ℤ) ℚ) :=
  Cover.buildRegular base2 (stablePart _) (lineDist l) 2 30 (List.range l.length)

/-- C103 (levels, children, nearest ancestor) is false with base two: of the points -5, 1, -16, 14 and 18, point 4 is
a child of point 1 on the level of point 1 and farther away than the covering distance 16, and point 0 is below point 2
although it is closer to point 1, a sibling of point 2. -/
theorem c103_levels_false : ∃ t, regularLine [-5, 1, -16, 14, 18] = .ok t ∧ ¬ LevelsDescend t ∧
    ¬ Everywhere (fun c => ∀ m ∈ c.children,
      lineDist [-5, 1, -16, 14, 18] c.index m.index ≤ coverDistance 2 c.level) t ∧
    ¬ NearestAncestor (lineDist [-5, 1, -16, 14, 18]) t := by
  have h : (regularLine [-5, 1, -16, 14, 18]).check (fun t => match t.children with
      | [b, c] => match c.children with
        | [a] => decide (b.index = 2 ∧ 0 ∈ points b ∧ c.index = 1 ∧ a.index = 4 ∧ c.level = ((4 : ℤ) : WithBot ℤ) ∧
          a.level = ((4 : ℤ) : WithBot ℤ))
        | _ => false
      | _ => false) = true := by decide +kernel
  obtain ⟨t, h1, h2⟩ := Outcome.exists_of_check h
  split at h2
  next b c hbc =>
    split at h2
    next a ha =>
      obtain ⟨h3, h4, h5, h6, h7, h8⟩ := of_decide_eq_true h2
      refine ⟨t, h1, fun hc => ?_, fun hc => ?_, fun hc => ?_⟩
      · have := (Cover.everywhere_iff.1 ((Cover.everywhere_iff.1 hc).2 c (by rw [hbc]; simp))).1 a (by rw [ha]; simp)
        rw [h7, h8] at this
        revert this
        decide +kernel
      · have := (Cover.everywhere_iff.1 ((Cover.everywhere_iff.1 hc).2 c (by rw [hbc]; simp))).1 a (by rw [ha]; simp)
        rw [h5, h6, h7] at this
        revert this
        decide +kernel
      · have := (Cover.everywhere_iff.1 hc).1 b (by rw [hbc]; simp) c (by rw [hbc]; simp) 0 h4
        rw [h3, h5] at this
        revert this
        decide +kernel
    next => cases h2
  next => cases h2

/-- C103 (covering) is false with base two: of the points 6, 19 and -14, point 1 at 19 is below point 2 at -14 with a
covering distance of 32. -/
theorem c103_covers_false : ∃ t, regularLine [6, 19, -14] = .ok t ∧ ¬ Covers 2 (lineDist [6, 19, -14]) t := by
  have h : (regularLine [6, 19, -14]).check (fun t =>
      decide (t.index = 2 ∧ 1 ∈ points t ∧ t.level = ((5 : ℤ) : WithBot ℤ))) = true := by decide +kernel
  obtain ⟨t, h1, h2⟩ := Outcome.exists_of_check h
  obtain ⟨h3, h4, h5⟩ := of_decide_eq_true h2
  refine ⟨t, h1, fun hc => ?_⟩
  have := (Cover.everywhere_iff.1 hc).1 1 h4
  rw [h3, h5] at this
  revert this
  decide +kernel

/-- C103 (separation) is false with base two: points 2 at -23 and 1 at -21 are both children of the root, and
the level of point 2 is 5. -/
theorem c103_apart_false : ∃ t, regularLine [-29, -21, -23, -43, -22, 1, 10] = .ok t ∧
    ¬ SiblingsApart 2 (lineDist [-29, -21, -23, -43, -22, 1, 10]) t := by
  have h : (regularLine [-29, -21, -23, -43, -22, 1, 10]).check (fun t => match t.children with
      | [a, b, _] => decide (a.index = 2 ∧ b.index = 1 ∧ a.level = ((5 : ℤ) : WithBot ℤ))
      | _ => false) = true := by decide +kernel
  obtain ⟨t, h1, h2⟩ := Outcome.exists_of_check h
  split at h2
  next a b c habc =>
    obtain ⟨h3, h4, h5⟩ := of_decide_eq_true h2
    refine ⟨t, h1, fun hc => ?_⟩
    have := (Cover.everywhere_iff.1 hc).1
    rw [habc] at this
    have := List.rel_of_pairwise_cons this (a' := b) (by simp)
    rw [h3, h4, h5] at this
    revert this
    decide +kernel
  next => cases h2

/-! ### Examples -/

/-- The hypotheses of C103 can be met: a tree of eight points on a line is built, and the search finds point 3 for the
query 10. -/
example : ∃ T, CoverTree.makeRegular base2 (stablePart _) 2 (metricL1 ℚ 1) Ref.ratNum (onLine [0, 5, 8, 11, 2, 7, 16, 3])
      8 (List.range 8) 30 = .ok T ∧
    ∃ r, T.searchNn (Ref.sorter _) 8 (fun _ => 10) ⟨0, 0⟩ = .ok r ∧ r = ⟨3, 1⟩ := by
  have h : (CoverTree.makeRegular base2 (stablePart _) 2 (metricL1 ℚ 1) Ref.ratNum (onLine [0, 5, 8, 11, 2, 7, 16, 3])
      8 (List.range 8) 30).check (fun T =>
      (T.searchNn (Ref.sorter _) 8 (fun _ => 10) ⟨0, 0⟩).check fun r => decide (r = ⟨3, 1⟩)) = true := by
    decide +kernel
  obtain ⟨T, h1, h2⟩ := Outcome.exists_of_check h
  obtain ⟨r, h3, h4⟩ := Outcome.exists_of_check h2
  exact ⟨T, h1, r, h3, by simpa using h4⟩

/-- Two times a covering distance is the one of the next level. -/
theorem base2_up (l : WithBot ℤ) : base2.cover l * 2 = base2.cover (base2.up l) := by
  cases l with
  | bot => exact zero_mul _
  | coe n => exact (zpow_add_one₀ (by norm_num) n).symm

/-- The hypotheses of `c103_root_partial` hold for the exact leveling with base two: the third of the points 0, 1, 9
raises the root three times. -/
example : (∀ l, base2.cover l * 2 = base2.cover (base2.up l)) ∧
    base2.cover (0 : ℤ) < lineDist [0, 1, 9] 2 0 ∧
    ∃ r, Cover.insertRegular base2 (stablePart _) (lineDist [0, 1, 9]) 2 10
      (.node 0 ((0 : ℤ) : WithBot ℤ) () [.node 1 ((-1 : ℤ) : WithBot ℤ) () []])
      (.node 2 ((0 : ℤ) : WithBot ℤ) () []) = .ok r ∧ (r.index = 2 ∧ r.level = ((4 : ℤ) : WithBot ℤ)) := by
  refine ⟨base2_up, by decide +kernel, ?_⟩
  obtain ⟨r, h1, h2⟩ := Outcome.exists_of_check (p := fun r : CNode (WithBot ℤ) Unit =>
      decide (r.index = 2 ∧ r.level = ((4 : ℤ) : WithBot ℤ)))
    (x := Cover.insertRegular base2 (stablePart _) (lineDist [0, 1, 9]) 2 10
      (.node 0 ((0 : ℤ) : WithBot ℤ) () [.node 1 ((-1 : ℤ) : WithBot ℤ) () []])
      (.node 2 ((0 : ℤ) : WithBot ℤ) () [])) (by decide +kernel)
  exact ⟨r, h1, of_decide_eq_true h2⟩
end Pico.Props
