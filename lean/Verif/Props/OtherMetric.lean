import Verif.Props.Frame
import Verif.Props.Nearest

/-!
# C115: a saved tree may be loaded with another metric

The metric is not in the file (kd_tree.hpp:350-378, kd_tree_data.hpp:122-135) and the construction does not use it
(kd_tree.hpp:77-92), so what is loaded is the tree that would have been built with the other metric.
-/

namespace Pico.Props

open Pico Spec

section Any
variable {α : Type} [LinearOrder α] [Add α] [Sub α] {d : Nat} {β : Type} {tag : SpaceTag α d β} {M : Metric α d}
  {N : Num α} {pts : Nat → Pt α d} {n : Nat} {o : BuildOpts α d} {fuel : Nat}

/-- C115: the construction takes no notice of the metric beyond the kind of space, in any arithmetic. -/
theorem c115_make (M M' : Metric α d) : KdTree.make tag M' N pts n o fuel =
    (KdTree.make tag M N pts n o fuel).bind fun T => .ok { T with metric := M' } := by
  unfold KdTree.make
  cases buildTree (KdTree.cfg tag N pts o) n o.bounds fuel <;> rfl

/-- The tree built with metric `M`, once saved and loaded with metric `M'`, is the tree built with metric `M'`, and
that one has the same file. -/
def LoadsAs (P : Platform α) (branch : Codec β) (tag : SpaceTag α d β) (M' : Metric α d) (N : Num α)
    (pts : Nat → Pt α d) (n : Nat) (o : BuildOpts α d) (fuel : Nat) (T : KdTree α d β) : Prop :=
  ∃ T', KdTree.make tag M' N pts n o fuel = .ok T' ∧
    ∀ (pad : Nat → Byte) (out : List Byte), T'.save pad P branch out = T.save pad P branch out ∧
      ∃ body, T.save pad P branch out = out ++ body ∧ ∀ rest fuel', (body ++ rest).length < fuel' →
        KdTree.load P branch tag M' N pts n fuel' (body ++ rest) = .ok T' rest

/-- C115 for two metrics of the same kind, for every tree whose values the types of the file can hold. -/
theorem c115_loads_partial {P : Platform α} {branch : Codec β} {T : KdTree α d β}
    (h : KdTree.make tag M N pts n o fuel = .ok T) (hF : T.data.Fits P branch) (hb : 0 < P.bool.size)
    (M' : Metric α d) : LoadsAs P branch tag M' N pts n o fuel T := by
  refine ⟨{ T with metric := M' }, by rw [c115_make M, h]; rfl, fun pad out => ⟨rfl, ?_⟩⟩
  obtain ⟨body, e, r⟩ := load_save_static hF hb pad out
  refine ⟨body, e, fun rest fuel' hf => ?_⟩
  obtain ⟨h1, -, h3, h4, h5⟩ := make_fields h
  unfold KdTree.load
  rw [r rest fuel' hf, ← h1, ← h3, ← h4, ← h5]
  rfl

end Any

section Kinds
variable {α : Type} [LinearOrder α] [Zero α] [Add α] [Sub α] {d : Nat} {M : Metric α d}
  {N : Num α} {pts : Nat → Pt α d} {n : Nat} {o : BuildOpts α d} {fuel : Nat} {P : Platform α}

/-- C115 for two Euclidean metrics, in any arithmetic. -/
theorem c115_euclidean_partial {T : KdTree α d (Branch1 α d)}
    (h : KdTree.make (euclideanTag α d) M N pts n o fuel = .ok T) (hp : P.Holds n d)
    (hs : ∀ v, P.scalar.Good v) (M' : Metric α d) :
    LoadsAs P (P.branch1 d) (euclideanTag α d) M' N pts n o fuel T :=
  c115_loads_partial h (fits_of_make h hp hs fun _ _ dim => good_branch1 (hp.splitDim _ dim.isLt) (hs _) (hs _)) hp.flag M'

/-- C115 for two topological metrics. -/
theorem c115_topological_partial [One α] [Neg α] {T : KdTree α d (Branch2 α d)}
    (h : KdTree.make (topologicalTag α d) M N pts n o fuel = .ok T) (hp : P.Holds n d)
    (hs : ∀ v, P.scalar.Good v) (M' : Metric α d) :
    LoadsAs P (P.branch2 d) (topologicalTag α d) M' N pts n o fuel T :=
  c115_loads_partial h (fits_of_make h hp hs fun _ _ dim =>
    good_branch2 (hp.splitDim _ dim.isLt) (hs _) (hs _) (hs _) (hs _)) hp.flag M'

end Kinds

section Leaf
variable {α : Type} {d : Nat} {β β' : Type} {P : Platform α} {branch : Codec β} {branch' : Codec β'}

/-- C115: a tree that is a single leaf may also be loaded with a metric of the other kind. -/
theorem c115_leaf_partial {ids : List Nat} {box : Box α d} {b e : Nat}
    (h : (⟨ids, box, .leaf b e⟩ : TreeData α d β).Fits P branch) (hb : 0 < P.bool.size) (pad : Nat → Byte)
    (out : List Byte) :
    ∃ body, saveData pad P branch (⟨ids, box, .leaf b e⟩ : TreeData α d β) out = out ++ body ∧
      ∀ rest fuel, (body ++ rest).length < fuel →
        loadStatic P branch' d fuel (body ++ rest) = .ok ⟨ids, box, .leaf b e⟩ rest := by
  have h' : (⟨ids, box, .leaf b e⟩ : TreeData α d β').Fits P branch' :=
    ⟨h.dim, h.length, h.indices, h.min, h.max, h.root, h.bool⟩
  obtain ⟨body, x, r⟩ := load_save_static h' hb pad out
  exact ⟨body, x, r⟩

end Leaf

section Exact
variable {α : Type} [CommRing α] [LinearOrder α] [IsStrictOrderedRing α] {d : Nat} {M : Metric α d}
  {N : Num α} {pts : Nat → Pt α d} {n : Nat} {o : BuildOpts α d} {fuel : Nat} {P : Platform α}

/-- C115: after loading with another Euclidean metric the searches are exact for that metric. -/
theorem c115_search_partial {T : KdTree α d (Branch1 α d)}
    (h : KdTree.make (euclideanTag α d) M N pts n o fuel = .ok T) (hF : T.data.Fits P (P.branch1 d))
    (hb : 0 < P.bool.size) {M' : Metric α d} (hM' : EuclideanAdditive M') (hR : Representable N pts n o) (hn : 0 < n) (pad : Nat → Byte) :
    ∃ T', KdTree.load P (P.branch1 d) (euclideanTag α d) M' N pts n ((T.save pad P (P.branch1 d) []).length + 1)
        (T.save pad P (P.branch1 d) []) = .ok T' [] ∧
      ∀ q, (∀ i < n, M'.dist q (pts i) < N.big) →
        (∀ nn, IsNN n (fun i => M'.dist q (pts i)) (T'.searchNn q nn)) ∧
        (∀ k, 0 < k → ∀ prior, ∃ out, T'.searchKnn q k prior = .ok out ∧ IsKnn n k (fun i => M'.dist q (pts i)) out) ∧
        ∀ sorter r prior sort, IsRadius n (fun i => M'.dist q (pts i)) r (T'.searchRadius sorter q r prior sort) := by
  obtain ⟨T', h', hl⟩ := c115_loads_partial h hF hb M'
  obtain ⟨-, body, e, r⟩ := hl pad []
  rw [List.nil_append] at e
  have hl := r [] (body.length + 1) (by simp)
  rw [List.append_nil] at hl
  refine ⟨T', by rw [e]; exact hl, fun q hbig => ⟨c15_nn_euclidean hM' h' hR hn q hbig, fun k hk prior => ?_,
    fun sorter r prior sort => (c15_radius_euclidean hM' h' hR hn q sorter r prior sort).1⟩⟩
  obtain ⟨out, a, b, -⟩ := c15_knn_euclidean hM' h' hR hn q hbig k hk prior
  exact ⟨out, a, b⟩

end Exact

/-- Three poses. -/
def poses3 : Nat → Pt Int 3
  | 0 => ![0, 0, 0]
  | 1 => ![0, 200, 0]
  | _ => ![257, 0, 0]

/-- C115 is false for a metric of the other kind: the file of a tree for `metric_se2_squared` over three poses is
accepted by a tree for `metric_l2_squared`, which then has two leaves
without meaning. -/
theorem c115_false :
    let P := Platform.le64 i32
    ∃ T, KdTree.make (topologicalTag Int 3) (metricSE2Sq Int) Ref.intNum poses3 3 (Ref.optsSliding Int 3) 10 = .ok T ∧
      ranges T.data.root = [(0, 1), (1, 2), (2, 3)] ∧
      ∃ T' rest, KdTree.load P (P.branch1 3) (euclideanTag Int 3) (metricL2Sq Int 3) Ref.intNum poses3 3 200
          (T.save (fun _ => 0) P (P.branch2 3) []) = .ok T' rest ∧
        ranges T'.data.root = [(16777217, 1), (0, 0)] := by
  obtain ⟨T, hT, hp⟩ := Outcome.exists_of_check
    (x := KdTree.make (topologicalTag Int 3) (metricSE2Sq Int) Ref.intNum poses3 3 (Ref.optsSliding Int 3) 10)
    (p := fun T => decide (ranges T.data.root = [(0, 1), (1, 2), (2, 3)]) &&
      match KdTree.load (Platform.le64 i32) ((Platform.le64 i32).branch1 3) (euclideanTag Int 3) (metricL2Sq Int 3)
          Ref.intNum poses3 3 200 (T.save (fun _ => 0) (Platform.le64 i32) ((Platform.le64 i32).branch2 3) []) with
      | .ok T' _ => decide (ranges T'.data.root = [(16777217, 1), (0, 0)])
      | _ => false) (by decide +kernel)
  simp only [Bool.and_eq_true, decide_eq_true_eq] at hp
  refine ⟨T, hT, hp.1, ?_⟩
  have h := hp.2
  cases hl : KdTree.load (Platform.le64 i32) ((Platform.le64 i32).branch1 3) (euclideanTag Int 3) (metricL2Sq Int 3)
      Ref.intNum poses3 3 200 (T.save (fun _ => 0) (Platform.le64 i32) ((Platform.le64 i32).branch2 3) []) with
  | ok T' rest =>
    rw [hl] at h
    exact ⟨T', rest, rfl, of_decide_eq_true h⟩
  | eof => simp [hl] at h
  | invalid => simp [hl] at h
  | throws => simp [hl] at h
  | oof => simp [hl] at h

/-- All numbers of the tree are 32-bit numbers. -/
def fits32 (t : Tree (Branch1 Int 2)) : Bool :=
  match t with
  | .leaf b e => decide (b < 2 ^ 31 ∧ e < 2 ^ 31)
  | .branch x l r => decide (|x.leftMax| < 2 ^ 31 ∧ |x.rightMin| < 2 ^ 31) && fits32 l && fits32 r

theorem good_i32 {v : Int} (h : |v| < 2 ^ 31) : i32.Good v := by
  have h := abs_lt.1 h
  refine good_view (good_unsigned (by omega)) ?_
  simp only [Option.some.injEq]
  split <;> omega

theorem fits_fits32 : ∀ {t : Tree (Branch1 Int 2)}, fits32 t = true →
    t.Fits (Platform.le64 i32) ((Platform.le64 i32).branch1 2)
  | .leaf b e, h => by
    simp only [fits32, decide_eq_true_eq] at h
    exact ⟨good_signed (by decide) (by omega), good_signed (by decide) (by omega)⟩
  | .branch x l r, h => by
    simp only [fits32, Bool.and_eq_true, decide_eq_true_eq] at h
    exact ⟨good_branch1 (good_signed (by decide) (by have := x.splitDim.isLt; omega)) (good_i32 h.1.1.1)
      (good_i32 h.1.1.2), fits_fits32 h.1.2, fits_fits32 h.2⟩

/-- The hypotheses of `c115_search_partial` on five points: built with `metric_l1`, loaded with `metric_l2_squared`. -/
example : ∃ T, KdTree.make (euclideanTag Int 2) (metricL1 Int 2) Ref.intNum Ref.pts5 5 (Ref.optsSliding Int 2) 10 =
      .ok T ∧
    ∃ T', KdTree.load (Platform.le64 i32) ((Platform.le64 i32).branch1 2) (euclideanTag Int 2) (metricL2Sq Int 2)
        Ref.intNum Ref.pts5 5 ((T.save (fun _ => 0) (Platform.le64 i32) ((Platform.le64 i32).branch1 2) []).length + 1)
        (T.save (fun _ => 0) (Platform.le64 i32) ((Platform.le64 i32).branch1 2) []) = .ok T' [] ∧
      ∀ nn, IsNN 5 (fun i => (metricL2Sq Int 2).dist ![5, 5] (Ref.pts5 i)) (T'.searchNn ![5, 5] nn) := by
  obtain ⟨T, h, hp⟩ := Outcome.exists_of_check
    (x := KdTree.make (euclideanTag Int 2) (metricL1 Int 2) Ref.intNum Ref.pts5 5 (Ref.optsSliding Int 2) 10)
    (p := fun T => fits32 T.data.root && decide (T.data.indices.length < 100 ∧ (∀ i ∈ T.data.indices, i < 100) ∧
      ∀ j, |T.data.rootBox.min j| < 2 ^ 31 ∧ |T.data.rootBox.max j| < 2 ^ 31)) (by decide +kernel)
  simp only [Bool.and_eq_true, decide_eq_true_eq] at hp
  have hF : T.data.Fits (Platform.le64 i32) ((Platform.le64 i32).branch1 2) :=
    ⟨good_unsigned (by decide), good_unsigned (by omega), fun i hi => good_signed (by decide) (by
      have := hp.2.2.1 i hi; omega), fun j => good_i32 (hp.2.2.2 j).1, fun j => good_i32 (hp.2.2.2 j).2,
      fits_fits32 hp.1, good_bool⟩
  obtain ⟨T', h', hs⟩ := c115_search_partial h hF Nat.one_pos additive_l2Sq representable_pts5 (by decide) fun _ => 0
  exact ⟨T, h, T', h', (hs ![5, 5] (by decide +kernel)).1⟩

end Pico.Props
