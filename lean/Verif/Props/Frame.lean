import Verif.Proof.Frame
import Verif.Props.Stream

/-!
# C79, C80: only the points of the space matter

A space of `n` points is a function on all numbers in the model; what it gives for `i ≥ n` stands for
whatever lies behind the points in memory.  The theorems say that nothing the constructor or a search
returns depends on it.
-/

set_option linter.unusedSectionVars false

namespace Pico.Props

open Pico Spec

section
variable {α : Type} [LinearOrder α] {d : Nat} {β : Type}

/-- The same tree over other points. -/
def withPts (T : KdTree α d β) (pts : Nat → Pt α d) : KdTree α d β := { T with pts := pts }

section Nearest
variable [Zero α] [Add α] [Sub α]

/-- C79 for a search with any visitor, on any tree: only the points listed in the tree matter. -/
theorem c79_visitor {σ : Type} (T : KdTree α d β) (pts' : Nat → Pt α d)
    (h : ∀ i ∈ T.data.indices, T.pts i = pts' i) (x : Pt α d) (V : Visitor α σ) (s : σ) :
    (withPts T pts').searchNearest x V s = T.searchNearest x V s := by
  unfold KdTree.searchNearest searchNearestRoot withPts
  rw [searchNearest_frame (dist' := fun i => T.metric.dist x (T.pts i))]
  intro i hi
  simp only [h i hi]

/-- C79, box searches on any tree. -/
theorem c79_box (T : KdTree α d β) (pts' : Nat → Pt α d)
    (h : ∀ i ∈ T.data.indices, T.pts i = pts' i) (mn mx : Pt α d) (idxs : List Nat) :
    (withPts T pts').searchBox mn mx idxs = T.searchBox mn mx idxs := by
  unfold KdTree.searchBox withPts
  dsimp only
  rw [searchBox_frame (cp' := fun i => T.tag.containsPt T.metric ⟨mn, mx⟩ (T.pts i))]
  intro i hi
  simp only [h i hi]

end Nearest

section Build
variable [Add α] [Sub α] {tag : SpaceTag α d β} {M : Metric α d} {N : Num α} {pts pts' : Nat → Pt α d}
  {n : Nat} {o : BuildOpts α d}

/-- C79, construction: two spaces with the same `n` points give the same tree, or both run into undefined
behaviour, or both need more steps. -/
theorem c79_build (hS : o.S.Local) (h : ∀ i < n, pts i = pts' i) (fuel : Nat) :
    (∀ T, KdTree.make tag M N pts n o fuel = .ok T →
      KdTree.make tag M N pts' n o fuel = .ok (withPts T pts')) ∧
    (KdTree.make tag M N pts n o fuel = .ub ↔ KdTree.make tag M N pts' n o fuel = .ub) ∧
    (KdTree.make tag M N pts n o fuel = .oof ↔ KdTree.make tag M N pts' n o fuel = .oof) := by
  have e := buildTree_frame (C := KdTree.cfg tag N pts o) hS h o.bounds fuel
  have e' : buildTree (KdTree.cfg tag N pts o) n o.bounds fuel =
      buildTree (KdTree.cfg tag N pts' o) n o.bounds fuel := e
  unfold KdTree.make
  rw [e']
  cases buildTree (KdTree.cfg tag N pts' o) n o.bounds fuel with
  | ok t =>
    refine ⟨fun T hT => ?_, by simp [Outcome.bind], by simp [Outcome.bind]⟩
    simp only [Outcome.bind, Outcome.ok.injEq] at hT ⊢
    rw [← hT]
    rfl
  | ub => exact ⟨fun T hT => by simp [Outcome.bind] at hT, by simp [Outcome.bind], by simp [Outcome.bind]⟩
  | oof => exact ⟨fun T hT => by simp [Outcome.bind] at hT, by simp [Outcome.bind], by simp [Outcome.bind]⟩

end Build

section All
variable [Zero α] [Add α] [Sub α] [One α] [Mul α] [Div α] {tag : SpaceTag α d β} {M : Metric α d} {N : Num α}
  {pts pts' : Nat → Pt α d} {n : Nat} {o : BuildOpts α d} {fuel : Nat}

/-- The answers of two trees to every query of the public interface. -/
structure SameAnswers (T T' : KdTree α d β) : Prop where
  nn : ∀ x p, T.searchNn x p = T'.searchNn x p
  nnApprox : ∀ x e p, T.searchNnApprox x e p = T'.searchNnApprox x e p
  knnRange : ∀ x b, T.searchKnnRange x b = T'.searchKnnRange x b
  knn : ∀ x k b, T.searchKnn x k b = T'.searchKnn x k b
  knnApproxRange : ∀ x e b, T.searchKnnApproxRange x e b = T'.searchKnnApproxRange x e b
  knnApprox : ∀ x k e b, T.searchKnnApprox x k e b = T'.searchKnnApprox x k e b
  radius : ∀ sorter x r b s, T.searchRadius sorter x r b s = T'.searchRadius sorter x r b s
  radiusApprox : ∀ sorter x r e b s,
    T.searchRadiusApprox sorter x r e b s = T'.searchRadiusApprox sorter x r e b s
  box : ∀ mn mx b, T.searchBox mn mx b = T'.searchBox mn mx b
  leafRanges : T.leafRanges = T'.leafRanges

theorem sameAnswers_withPts (T : KdTree α d β) (pts' : Nat → Pt α d)
    (h : ∀ i ∈ T.data.indices, T.pts i = pts' i) : SameAnswers (withPts T pts') T where
  nn x p := c79_visitor T pts' h x _ _
  nnApprox x e p := c79_visitor T pts' h x _ _
  knnRange x b := by
    unfold KdTree.searchKnnRange
    simp only [c79_visitor T pts' h]
    rfl
  knn x k b := by
    unfold KdTree.searchKnn KdTree.searchKnnRange
    simp only [c79_visitor T pts' h]
    rfl
  knnApproxRange x e b := by
    unfold KdTree.searchKnnApproxRange
    simp only [c79_visitor T pts' h]
    rfl
  knnApprox x k e b := by
    unfold KdTree.searchKnnApprox KdTree.searchKnnApproxRange
    simp only [c79_visitor T pts' h]
    rfl
  radius sorter x r b s := by
    unfold KdTree.searchRadius
    simp only [c79_visitor T pts' h]
  radiusApprox sorter x r e b s := by
    unfold KdTree.searchRadiusApprox
    simp only [c79_visitor T pts' h]
  box mn mx b := c79_box T pts' h mn mx b
  leafRanges := rfl

/-- C79: build a tree over `n` points, and another one over a space with the same `n` points and anything
else behind them.  Both constructions succeed and every query has the same answer. -/
theorem c79_answers (hS : o.S.Local) (h : ∀ i < n, pts i = pts' i) {T : KdTree α d β}
    (hT : KdTree.make tag M N pts n o fuel = .ok T) :
    ∃ T', KdTree.make tag M N pts' n o fuel = .ok T' ∧ SameAnswers T' T := by
  refine ⟨_, (c79_build hS h fuel).1 T hT, sameAnswers_withPts T pts' fun i hi => ?_⟩
  rw [(make_fields hT).2.2.2.1]
  exact h i (List.mem_range.1 ((c16_partition hT).1.mem_iff.1 hi))

/-- C79: the points behind the first `n` may also change after the construction (a `std::vector` whose
spare capacity is used for something else): the answers stay. -/
theorem c79_later (h : ∀ i < n, pts i = pts' i) {T : KdTree α d β}
    (hT : KdTree.make tag M N pts n o fuel = .ok T) : SameAnswers (withPts T pts') T := by
  refine sameAnswers_withPts T pts' fun i hi => ?_
  rw [(make_fields hT).2.2.2.1]
  exact h i (List.mem_range.1 ((c16_partition hT).1.mem_iff.1 hi))

end All
end

/-! ## C80: loading with another space -/

section
variable {α : Type} [LinearOrder α] [Zero α] [Add α] [Sub α] [One α] [Mul α] [Div α] {d : Nat} {β : Type}
  {tag : SpaceTag α d β} {M : Metric α d} {N : Num α} {pts : Nat → Pt α d} {n : Nat} {o : BuildOpts α d}
  {fuel : Nat} {P : Platform α} {branch : Codec β}

/-- C80: a saved tree is loaded with every space, of any size: the number of points is not compared. -/
theorem c80_accepts {T : KdTree α d β} (hT : T.data.Fits P branch) (hb : 0 < P.bool.size)
    (pad : Nat → Byte) (pts' : Nat → Pt α d) (m : Nat) :
    ∃ body, T.save pad P branch [] = body ∧ ∀ rest fuel, (body ++ rest).length < fuel →
      KdTree.load P branch T.tag T.metric T.num pts' m fuel (body ++ rest) =
        .ok { T with pts := pts', n := m } rest := by
  obtain ⟨body, e, r⟩ := load_save_static hT hb pad []
  refine ⟨body, by simpa [KdTree.save] using e, fun rest fuel hf => ?_⟩
  unfold KdTree.load
  rw [r rest fuel hf]
  rfl

/-- C80, the violation in general: loaded with a space of fewer points, every tree refers to points behind
the end of the space. -/
theorem c80_outside (hT : ∃ T, KdTree.make tag M N pts n o fuel = .ok T ∧ T.data.Fits P branch)
    (hb : 0 < P.bool.size) (pad : Nat → Byte) (pts' : Nat → Pt α d) {m : Nat} (hm : m < n) :
    ∃ T, KdTree.make tag M N pts n o fuel = .ok T ∧
      ∃ T', KdTree.load P branch tag M N pts' m ((T.save pad P branch []).length + 1)
          (T.save pad P branch []) = .ok T' [] ∧
        T'.n = m ∧ ∃ i ∈ T'.data.indices, T'.n ≤ i := by
  obtain ⟨T, hT, hF⟩ := hT
  refine ⟨T, hT, { T with pts := pts', n := m }, ?_, rfl, m, ?_, le_rfl⟩
  · obtain ⟨body, e, r⟩ := c80_accepts hF hb pad pts' m
    obtain ⟨rfl, rfl, rfl, -, -⟩ := make_fields hT
    have := r [] (body.length + 1) (by simp)
    rw [List.append_nil] at this
    rw [e]
    exact this
  · exact (c16_partition hT).1.mem_iff.2 (List.mem_range.2 hm)

/-- C80, what holds: with a space of at least as many points of which the first `n` are the original ones,
the loaded tree depends on these `n` points only, and gives the original answers to all queries that do not
look at the size of the space. -/
theorem c80_same_partial {T : KdTree α d β} (hT : KdTree.make tag M N pts n o fuel = .ok T)
    (hF : T.data.Fits P branch) (hb : 0 < P.bool.size) (pad : Nat → Byte) (pts' : Nat → Pt α d) {m : Nat}
    (h : ∀ i < n, pts i = pts' i) (hm : n ≤ m) :
    ∃ T', KdTree.load P branch tag M N pts' m ((T.save pad P branch []).length + 1)
        (T.save pad P branch []) = .ok T' [] ∧
      (∀ i ∈ T'.data.indices, i < m) ∧
      (∀ x p, T'.searchNn x p = T.searchNn x p) ∧
      (∀ x b, T'.searchKnnRange x b = T.searchKnnRange x b) ∧
      (∀ sorter x r b s, T'.searchRadius sorter x r b s = T.searchRadius sorter x r b s) ∧
      (∀ mn mx b, T'.searchBox mn mx b = T.searchBox mn mx b) ∧
      (n = m → SameAnswers T' T) := by
  obtain ⟨body, e, r⟩ := c80_accepts hF hb pad pts' m
  obtain ⟨rfl, rfl, rfl, -, h5⟩ := make_fields hT
  have hl := r [] (body.length + 1) (by simp)
  rw [List.append_nil] at hl
  have hs := c79_later h hT
  refine ⟨{ T with pts := pts', n := m }, by rw [e]; exact hl, fun i hi => ?_, hs.nn, hs.knnRange, hs.radius,
    hs.box, ?_⟩
  · exact lt_of_lt_of_le (List.mem_range.1 ((c16_partition hT).1.mem_iff.1 hi)) hm
  · rintro rfl
    have : ({ T with pts := pts', n := n } : KdTree α d β) = withPts T pts' := by
      unfold withPts
      rw [h5]
    rw [this]
    exact hs

end

/-! ## Concrete cases and the witness -/

/-- Insertion sort applies the comparator to elements of the list only. -/
theorem insertionSort_congr {r r' : Nat → Nat → Prop} [DecidableRel r] [DecidableRel r'] {l : List Nat}
    (h : ∀ x ∈ l, ∀ y ∈ l, (r x y ↔ r' x y)) : l.insertionSort r = l.insertionSort r' := by
  have ho : ∀ (a : Nat) (m : List Nat), (∀ y ∈ m, (r a y ↔ r' a y)) →
      m.orderedInsert r a = m.orderedInsert r' a := by
    intro a m
    induction m with
    | nil => intro _; rfl
    | cons b m ih =>
      intro hm
      have hb := hm b (by simp)
      simp only [List.orderedInsert_cons, ih fun y hy => hm y (by simp [hy])]
      by_cases hr : r a b
      · rw [if_pos hr, if_pos (hb.1 hr)]
      · rw [if_neg hr, if_neg (fun h => hr (hb.2 h))]
  induction l with
  | nil => rfl
  | cons a l ih =>
    rw [List.insertionSort_cons, List.insertionSort_cons,
      ih fun x hx y hy => h x (by simp [hx]) y (by simp [hy])]
    apply ho
    intro y hy
    exact h a (by simp) y (by simp [(List.mem_insertionSort r').1 hy])

/-- The reference library meets the hypothesis of the theorems. -/
theorem local_std : Ref.std.Local where
  partition p p' l h := by
    have h1 : l.filter p = l.filter p' := List.filter_congr h
    have h2 : l.filter (fun x => !p x) = l.filter (fun x => !p' x) :=
      List.filter_congr fun x hx => by rw [h x hx]
    simp only [Ref.std, h1, h2]
  nth lt lt' k l h := insertionSort_congr fun x hx y hy => by
    unfold Ref.leOf
    rw [h y hy x hx]

/-- Hypotheses of `c79_answers`: five points, followed by different things in memory. -/
example : ∃ T, KdTree.make (euclideanTag Int 2) (metricL1 Int 2) Ref.intNum Ref.pts5 5 (Ref.optsSliding Int 2) 10 =
      .ok T ∧
    (∀ i < 5, Ref.pts5 i = (fun i => if i < 5 then Ref.pts5 i else ![100, (i : Int)]) i) ∧
    Ref.pts5 5 ≠ (fun i => if i < 5 then Ref.pts5 i else ![100, (i : Int)]) 5 := by
  obtain ⟨T, hT, -⟩ := Outcome.exists_of_check
    (x := KdTree.make (euclideanTag Int 2) (metricL1 Int 2) Ref.intNum Ref.pts5 5 (Ref.optsSliding Int 2) 10)
    (p := fun _ => true) (by decide +kernel)
  exact ⟨T, hT, fun i hi => by simp [hi], by decide⟩

/-- Hypotheses of `c80_outside` and `c80_same_partial`: five points with 16-bit coordinates. -/
example : ∃ T : KdTree (Fin 65536) 2 (Branch1 (Fin 65536) 2),
    KdTree.make (euclideanTag _ 2) (metricL1 (Fin 65536) 2)
      ⟨0, 65535, fun _ => 0, fun x => ⟨x.val / 2, by omega⟩⟩
      (fun i => ![(⟨i * 7 % 5, by omega⟩ : Fin 65536), ⟨i * 3 % 5, by omega⟩]) 5
      (Ref.optsSliding _ 2) 10 = .ok T ∧
    T.data.Fits (Platform.le64 u16) ((Platform.le64 u16).branch1 2) := by
  obtain ⟨T, hT, -⟩ := Outcome.exists_of_check
    (x := KdTree.make (euclideanTag _ 2) (metricL1 (Fin 65536) 2)
      ⟨0, 65535, fun _ => 0, fun x => ⟨x.val / 2, by omega⟩⟩
      (fun i => ![(⟨i * 7 % 5, by omega⟩ : Fin 65536), ⟨i * 3 % 5, by omega⟩]) 5
      (Ref.optsSliding _ 2) 10)
    (p := fun _ => true) (by decide +kernel)
  have hp : (Platform.le64 u16).Holds 5 2 := holds_le64 _ (by omega) (by omega)
  exact ⟨T, hT, fits_of_make hT hp good_u16
    fun bl br dim => good_branch1 (hp.splitDim _ dim.isLt) (good_u16 _) (good_u16 _)⟩

/-- A space of the two points 0 and 4, with `behind` behind them in memory. -/
def twoPts (behind : Int) : Nat → Pt Int 1
  | 0 => ![0]
  | 1 => ![4]
  | _ => ![behind]

/-- 32-bit integers in two's complement. -/
def i32 : Codec Int :=
  (Codec.unsigned 4).view (fun v => (v % 4294967296).toNat)
    fun v => some (if v < 2147483648 then (v : Int) else (v : Int) - 4294967296)

/-- C80 is false: the tree the constructor makes of the three points 0, 4, 9 is saved; the file is accepted
together with a space that has only the first two of them.  The nearest neighbor of 20 is then point 2, which
the space does not have, and its distance depends on what lies behind the space. -/
theorem c80_false :
    let P := Platform.le64 i32
    let o : BuildOpts Int 1 := ⟨Ref.std, .sliding, .maxLeafSize 2, .fromSpace, 32⟩
    ∃ T, KdTree.make (euclideanTag Int 1) (metricL1 Int 1) Ref.intNum (twoPts 9) 3 o 10 = .ok T ∧
      T.searchNn ![20] ⟨0, 0⟩ = ⟨2, 11⟩ ∧
      ∀ behind : Int, behind = 17 ∨ behind = 25 →
      ∃ T', KdTree.load P (P.branch1 1) (euclideanTag Int 1) (metricL1 Int 1) Ref.intNum (twoPts behind) 2 200
          (T.save (fun _ => 0) P (P.branch1 1) []) = .ok T' [] ∧
        T'.n = 2 ∧ T'.searchNn ![20] ⟨0, 0⟩ = ⟨2, |20 - behind|⟩ := by
  obtain ⟨T, hT, hp⟩ := Outcome.exists_of_check
    (x := KdTree.make (euclideanTag Int 1) (metricL1 Int 1) Ref.intNum (twoPts 9) 3
      ⟨Ref.std, .sliding, .maxLeafSize 2, .fromSpace, 32⟩ 10)
    (p := fun T => decide (T.searchNn ![20] ⟨0, 0⟩ = ⟨2, 11⟩) &&
      ([17, 25] : List Int).all fun behind =>
        match KdTree.load (Platform.le64 i32) ((Platform.le64 i32).branch1 1) (euclideanTag Int 1)
          (metricL1 Int 1) Ref.intNum (twoPts behind) 2 200
          (T.save (fun _ => 0) (Platform.le64 i32) ((Platform.le64 i32).branch1 1) []) with
        | .ok T' rest => decide (rest = []) && decide (T'.n = 2) &&
            decide (T'.searchNn ![20] ⟨0, 0⟩ = ⟨2, |20 - behind|⟩)
        | _ => false)
    (by decide +kernel)
  simp only [Bool.and_eq_true, decide_eq_true_eq, List.all_eq_true] at hp
  refine ⟨T, hT, hp.1, fun behind hb => ?_⟩
  have h := hp.2 behind (by simpa using hb)
  cases hl : KdTree.load (Platform.le64 i32) ((Platform.le64 i32).branch1 1) (euclideanTag Int 1)
      (metricL1 Int 1) Ref.intNum (twoPts behind) 2 200
      (T.save (fun _ => 0) (Platform.le64 i32) ((Platform.le64 i32).branch1 1) []) with
  | ok T' rest =>
    rw [hl] at h
    simp only [Bool.and_eq_true, decide_eq_true_eq] at h
    exact ⟨T', by rw [h.1.1], h.1.2, h.2⟩
  | eof => simp [hl] at h
  | invalid => simp [hl] at h
  | throws => simp [hl] at h
  | oof => simp [hl] at h

end Pico.Props
