import Verif.Model.ForestExample
import Verif.Props.Forest
import Verif.Props.Nearest

/-!
# C98: the precision that the kd_forest example reports
-/

namespace Pico.Props

open Pico Spec

section
variable {α : Type} [CommRing α] [LinearOrder α] [IsStrictOrderedRing α] {d : Nat}
  {S : Std} {N N' : Num α} {pts : Nat → Pt α d} {n indexBits maxLeafSize fuel fuelT : Nat}
  {rotations : List (Pt α d)} {F : Forest α d} {o : BuildOpts α d} {T : KdTree α d (Branch1 α d)}

/-- Point `i` is a nearest one of `x`. -/
def Nearest (n : Nat) (pts : Nat → Pt α d) (x : Pt α d) (i : Nat) : Prop :=
  i < n ∧ ∀ j < n, l2Sq x (pts i) ≤ l2Sq x (pts j)

/-- How many of the queries got a nearest point. -/
noncomputable def found (n : Nat) (pts : Nat → Pt α d) (test : List (Pt α d)) (answers : List (Neighbor α)) : Nat :=
  open Classical in (test.zip answers).countP fun p => decide (Nearest n pts p.1 p.2.index)

/-- No two points are nearest. -/
def Unique (n : Nat) (pts : Nat → Pt α d) (x : Pt α d) : Prop :=
  ∀ i j, Nearest n pts x i → Nearest n pts x j → i = j

omit [IsStrictOrderedRing α] in
theorem runKdForestLoop_spec (Q : Nat → StdQueue α (Tree (Branch2 α d))) (fuel' maxLeaves : Nat) (gt : Pt α d → Neighbor α)
    (test : List (Pt α d)) (hgt : ∀ x ∈ test, Nearest n pts x (gt x).index)
    (hans : ∀ x ∈ test, ∀ nn, ∃ r, F.searchNn Q fuel' x maxLeaves nn = .ok r ∧ r.index < n) :
    ∀ (suf pre : List (Pt α d)) (nn : Neighbor α) (equal : Nat), test = pre ++ suf →
      ∃ e answers, runKdForestLoop Q fuel' F test maxLeaves (suf.map gt) pre.length nn equal = .ok (equal + e) ∧
        List.Forall₂ (fun x r => ∃ nn, F.searchNn Q fuel' x maxLeaves nn = .ok r) suf answers ∧
        e ≤ found n pts suf answers ∧ ((∀ x ∈ suf, Unique n pts x) → e = found n pts suf answers) := by
  intro suf
  induction suf with
  | nil =>
    intro pre nn equal _
    exact ⟨0, [], rfl, .nil, Nat.zero_le _, fun _ => rfl⟩
  | cons x suf ih =>
    intro pre nn equal htest
    have hx : x ∈ test := by rw [htest]; simp
    obtain ⟨r, h1, h2⟩ := hans x hx nn
    have hget : test[pre.length]? = some x := by rw [htest]; simp
    obtain ⟨e, answers, g1, g2, g3, g4⟩ := ih (pre ++ [x]) r (if (gt x).index = r.index then equal + 1 else equal)
      (by rw [htest]; simp)
    rw [List.length_append, List.length_singleton] at g1
    have hstep : runKdForestLoop Q fuel' F test maxLeaves ((x :: suf).map gt) pre.length nn equal =
        .ok ((if (gt x).index = r.index then equal + 1 else equal) + e) := by
      rw [List.map_cons, runKdForestLoop, hget]
      dsimp only
      rw [h1]
      exact g1
    have hcount : found n pts (x :: suf) (r :: answers) =
        found n pts suf answers + (open Classical in if Nearest n pts x r.index then 1 else 0) := by
      unfold found
      rw [List.zip_cons_cons, List.countP_cons]
      by_cases hc : Nearest n pts x r.index <;> simp [hc]
    by_cases heq : (gt x).index = r.index
    · have hnear : Nearest n pts x r.index := heq ▸ hgt x hx
      rw [if_pos heq] at hstep
      refine ⟨e + 1, r :: answers, by rw [hstep]; congr 1; omega, .cons ⟨nn, h1⟩ g2, ?_, ?_⟩
      · rw [hcount, if_pos hnear]; omega
      · intro hu
        rw [hcount, if_pos hnear, g4 fun y hy => hu y (List.mem_cons_of_mem _ hy)]
    · rw [if_neg heq] at hstep
      refine ⟨e, r :: answers, hstep, .cons ⟨nn, h1⟩ g2, ?_, ?_⟩
      · rw [hcount]; omega
      · intro hu
        have hnear : ¬ Nearest n pts x r.index := fun hc =>
          heq (hu x (by simp) _ _ (hgt x hx) hc)
        rw [hcount, if_neg hnear, g4 fun y hy => hu y (List.mem_cons_of_mem _ hy), Nat.add_zero]

omit [IsStrictOrderedRing α] in
theorem Nearest.of_isNN {x : Pt α d} {r : Neighbor α} (h : IsNN n (fun i => l2Sq x (pts i)) r) :
    Nearest n pts x r.index := by
  refine ⟨h.valid, fun j hj => ?_⟩
  have := h.nearest j hj
  rwa [h.distance] at this

omit [IsStrictOrderedRing α] in
/-- The file of answers is older than the data: with more answers than queries the loop reads behind the end of the
queries, whatever the forest. -/
theorem c98_stale (T : KdTree α d (Branch1 α d)) (Q : Nat → StdQueue α (Tree (Branch2 α d))) (fuel' : Nat) (F : Forest α d)
    (test : List (Pt α d)) (maxLeaves : Nat) (nn : Neighbor α) (nns : List (Neighbor α))
    (hlen : test.length < nns.length)
    (hans : ∀ x ∈ test, ∀ nn, ∃ r, F.searchNn Q fuel' x maxLeaves nn = .ok r) :
    runDataset T Q fuel' F test (some nns) maxLeaves nn = .ub := by
  have key : ∀ (nns : List (Neighbor α)) (i : Nat) (nn : Neighbor α) (equal : Nat), test.length < i + nns.length →
      i ≤ test.length → runKdForestLoop Q fuel' F test maxLeaves nns i nn equal = .ub := by
    intro nns
    induction nns with
    | nil => intro i nn equal h1 h2; simp at h1; omega
    | cons g nns ih =>
      intro i nn equal h1 h2
      rw [runKdForestLoop]
      rcases h2.lt_or_eq with h3 | h3
      · rw [List.getElem?_eq_getElem h3]
        dsimp only
        obtain ⟨r, h4⟩ := hans test[i] (List.getElem_mem _) nn
        rw [h4]
        exact ih (i + 1) r _ (by simp at h1; omega) h3
      · rw [List.getElem?_eq_none h3.ge]
  unfold runDataset runKdForest runKdTree
  dsimp only
  rw [key nns 0 nn 0 (by omega) (Nat.zero_le _)]
  rfl

omit [IsStrictOrderedRing α] in
/-- A second run over the file that the first one has left, with any tree: the same precision. A run over no queries
leaves no file. -/
theorem c98_second_run (T T' : KdTree α d (Branch1 α d)) (Q : Nat → StdQueue α (Tree (Branch2 α d))) (fuel' : Nat) (F : Forest α d)
    (test : List (Pt α d)) (maxLeaves : Nat) (nn : Neighbor α) :
    runDataset T' Q fuel' F test (runKdTree T test none).2 maxLeaves nn = runDataset T Q fuel' F test none maxLeaves nn ∧
    ((runKdTree T test none).2 = none ↔ test = []) := by
  cases test with
  | nil => exact ⟨rfl, by simp [runKdTree]⟩
  | cons x test => exact ⟨rfl, by simp [runKdTree]⟩

omit [IsStrictOrderedRing α] in
/-- A second run with fewer queries reads behind the end of the queries. -/
theorem c98_rerun_false (T T' : KdTree α d (Branch1 α d)) (Q : Nat → StdQueue α (Tree (Branch2 α d))) (fuel' : Nat)
    (F : Forest α d) (test test' : List (Pt α d)) (maxLeaves : Nat) (nn : Neighbor α) (hlen : test'.length < test.length)
    (hans : ∀ x ∈ test', ∀ nn, ∃ r, F.searchNn Q fuel' x maxLeaves nn = .ok r) :
    runDataset T' Q fuel' F test' (runKdTree T test none).2 maxLeaves nn = .ub := by
  have e : (runKdTree T test none).2 = some (test.map fun x => T.searchNn x ⟨0, 0⟩) := by
    cases test with
    | nil => simp at hlen
    | cons x test => rfl
  rw [e]
  exact c98_stale T' Q fuel' F test' maxLeaves nn _ (by simpa using hlen) hans

variable (hT : KdTree.make (euclideanTag α d) (metricL2Sq α d) N' pts n o fuelT = .ok T)
  (hR : Representable N' pts n o) (hn : 0 < n)
  (hm : 1 ≤ maxLeafSize ∧ maxLeafSize < 2 ^ (indexBits - 1))
  (hunit : ∀ r ∈ rotations, ∑ j, r j ^ 2 = 1) (hN : N.low ≤ N.big)
  (hp : ∀ r ∈ rotations, ∀ i < n, ∀ j, InRange N (rotatePoint r (pts i) j))
  (h : Forest.make (metricL2Sq α d) S N pts n indexBits maxLeafSize fuel rotations = .ok F)
  (Q : Nat → StdQueue α (Tree (Branch2 α d))) (maxLeaves fuel' : Nat) (hf : n < fuel')
  (test : List (Pt α d)) (hbig : ∀ x ∈ test, ∀ i < n, l2Sq x (pts i) < N.big ∧ l2Sq x (pts i) < N'.big)
include hT hR hn hm hunit hN hp h hf hbig

/-- C98, without a file from an earlier run: every query that is counted got a nearest point; if nearest points are
unique then the number is right. -/
theorem c98_partial (hne : rotations ≠ []) (hl : 0 < maxLeaves) (nn : Neighbor α) :
    ∃ e answers, runDataset T Q fuel' F test none maxLeaves nn = .ok (e, test.length) ∧
      List.Forall₂ (fun x r => ∃ nn, F.searchNn Q fuel' x maxLeaves nn = .ok r) test answers ∧
      e ≤ found n pts test answers ∧ ((∀ x ∈ test, Unique n pts x) → e = found n pts test answers) := by
  obtain ⟨e, answers, h1, h2, h3, h4⟩ := runKdForestLoop_spec (n := n) (pts := pts) (F := F) Q fuel' maxLeaves
    (fun x => T.searchNn x ⟨0, 0⟩) test
    (fun x hx => Nearest.of_isNN (c01_nn_l2 hT hR hn x (fun i hi => (hbig x hx i hi).2) _))
    (fun x hx nn => by
      obtain ⟨r, vss, g1, -, -, g4, -⟩ := c47_sound_partial hn hm hunit hN hp h Q x maxLeaves fuel' hf
        (fun i hi => (hbig x hx i hi).1) hne hl nn
      exact ⟨r, g1, g4⟩) test [] nn 0 rfl
  refine ⟨e, answers, ?_, h2, h3, h4⟩
  unfold runDataset runKdForest runKdTree
  dsimp only
  rw [List.length_nil, Nat.zero_add] at h1
  rw [h1]
  simp [Outcome.bind]

/-- C98: with a budget of at least the number of leaves, and unique nearest points, the precision is one. -/
theorem c98_one_partial (hl : ∃ t ∈ F.trees, (ranges t.data.root).length ≤ maxLeaves) (hl0 : 0 < maxLeaves)
    (hu : ∀ x ∈ test, Unique n pts x) (nn : Neighbor α) :
    runDataset T Q fuel' F test none maxLeaves nn = .ok (test.length, test.length) := by
  obtain ⟨t, ht, hle⟩ := hl
  obtain ⟨-, -, hF⟩ := Forest.make_ok h
  obtain ⟨r, hr, -⟩ := forall₂_right hF ht
  obtain ⟨e, answers, h1, h2, -, h4⟩ := c98_partial hT hR hn hm hunit hN hp h Q maxLeaves fuel' hf test hbig
    (List.ne_nil_of_mem hr) hl0 nn
  have hall : ∀ (test : List (Pt α d)) (answers : List (Neighbor α)),
      (∀ x ∈ test, ∀ i < n, l2Sq x (pts i) < N.big ∧ l2Sq x (pts i) < N'.big) →
      List.Forall₂ (fun x r => ∃ nn, F.searchNn Q fuel' x maxLeaves nn = .ok r) test answers →
      found n pts test answers = test.length := by
    intro test answers hb h2
    induction h2 with
    | nil => rfl
    | @cons x r test answers h5 h6 ih =>
      obtain ⟨nn, h5⟩ := h5
      obtain ⟨r', g1, g2⟩ := c47_exact hn hm hunit hN hp h Q x maxLeaves fuel' hf
        (fun i hi => (hb x (by simp) i hi).1) ⟨t, ht, hle⟩ nn
      rw [h5] at g1
      injection g1 with g1
      subst g1
      have := ih fun y hy => hb y (List.mem_cons_of_mem _ hy)
      unfold found at this ⊢
      rw [List.zip_cons_cons, List.countP_cons, this]
      simp [Nearest.of_isNN g2]
  rw [h1, h4 hu, hall test answers hbig h2]

end

/-! ## Examples -/

/-- The tree of the example. -/
def exampleTree {d : Nat} (pts : Nat → Pt ℚ d) (n : Nat) : Outcome (KdTree ℚ d (Branch1 ℚ d)) :=
  KdTree.make (euclideanTag ℚ d) (metricL2Sq ℚ d) Ref.ratNum pts n (Ref.optsSliding ℚ d) 20

/-- A forest on a line: one tree, whose reflection turns the line around. -/
def forestLine (pts : Nat → Pt ℚ 1) (n : Nat) : Outcome (Forest ℚ 1) :=
  Forest.make (metricL2Sq ℚ 1) Ref.std Ref.ratNum pts n 32 1 20 [![1]]

/-- The hypotheses of C98 can be met: with one leaf for each tree the answer for `(2, 0)` is not the nearest point (the precision is 1/2),
with five leaves both answers are right. -/
example : ∃ T F, exampleTree plane5 5 = .ok T ∧ forest5 (metricL2Sq ℚ 2) = .ok F ∧
    runDataset T (fun _ => refQueue ℚ _) 6 F [![2, 0], ![8, 2]] none 1 ⟨7, 7⟩ = .ok (1, 2) ∧
    runDataset T (fun _ => refQueue ℚ _) 6 F [![2, 0], ![8, 2]] none 5 ⟨7, 7⟩ = .ok (2, 2) := by
  have h : (exampleTree plane5 5).check (fun T => (forest5 (metricL2Sq ℚ 2)).check fun F =>
      (runDataset T (fun _ => refQueue ℚ _) 6 F [![2, 0], ![8, 2]] none 1 ⟨7, 7⟩).check (fun r => decide (r = (1, 2))) &&
      (runDataset T (fun _ => refQueue ℚ _) 6 F [![2, 0], ![8, 2]] none 5 ⟨7, 7⟩).check fun r => decide (r = (2, 2))) = true := by
    decide +kernel
  obtain ⟨T, h1, h2⟩ := Outcome.exists_of_check h
  obtain ⟨F, h3, h4⟩ := Outcome.exists_of_check h2
  rw [Bool.and_eq_true] at h4
  obtain ⟨r, h5, h6⟩ := Outcome.exists_of_check h4.1
  obtain ⟨r', h7, h8⟩ := Outcome.exists_of_check h4.2
  rw [decide_eq_true_eq] at h6 h8
  subst h6 h8
  exact ⟨T, F, h1, h3, h5, h7⟩

/-- The other hypotheses for this data, with unique nearest points. -/
example : (∀ r ∈ [unit34, ![0, 1]], ∑ j, r j ^ 2 = 1) ∧
    (∀ r ∈ [unit34, ![0, 1]], ∀ i < 5, ∀ j, InRange Ref.ratNum (rotatePoint r (plane5 i) j)) ∧
    (∀ x ∈ [(![2, 0] : Pt ℚ 2), ![8, 2]], ∀ i < 5, l2Sq x (plane5 i) < Ref.ratNum.big) ∧
    Representable Ref.ratNum plane5 5 (Ref.optsSliding ℚ 2) ∧
    ∀ x ∈ [(![2, 0] : Pt ℚ 2), ![8, 2]], Unique 5 plane5 x := by
  refine ⟨by decide +kernel, by unfold InRange; decide +kernel, by decide +kernel,
    ⟨by decide +kernel, by unfold InRange; decide +kernel, trivial, by simp [Ref.optsSliding]⟩, ?_⟩
  have h : ∀ x ∈ [(![2, 0] : Pt ℚ 2), ![8, 2]], ∀ i < 5, ∀ j < 5,
      (∀ k < 5, l2Sq x (plane5 i) ≤ l2Sq x (plane5 k)) → (∀ k < 5, l2Sq x (plane5 j) ≤ l2Sq x (plane5 k)) →
      i = j := by decide +kernel
  exact fun x hx i j h1 h2 => h x hx i h1.1 j h2.1 h1.2 h2.2

/-- Two points at the same distance from the query 0. -/
def line2 : Nat → Pt ℚ 1
  | 0 => ![-1]
  | _ => ![1]

/-- C98 is false with ties: the forest visits all its leaves and its answer is a nearest point, but the precision is
0. -/
theorem c98_false :
    ∃ T F r, exampleTree line2 2 = .ok T ∧ forestLine line2 2 = .ok F ∧
      F.searchNn (fun _ => refQueue ℚ _) 6 ![0] 2 ⟨7, 7⟩ = .ok r ∧ Nearest 2 line2 ![0] r.index ∧
      runDataset T (fun _ => refQueue ℚ _) 6 F [![0]] none 2 ⟨7, 7⟩ = .ok (0, 1) := by
  have h : (exampleTree line2 2).check (fun T => (forestLine line2 2).check fun F =>
      (F.searchNn (fun _ => refQueue ℚ _) 6 ![0] 2 ⟨7, 7⟩).check (fun r => decide (r = ⟨0, 1⟩)) &&
      (runDataset T (fun _ => refQueue ℚ _) 6 F [![0]] none 2 ⟨7, 7⟩).check fun r => decide (r = (0, 1))) = true := by
    decide +kernel
  obtain ⟨T, h1, h2⟩ := Outcome.exists_of_check h
  obtain ⟨F, h3, h4⟩ := Outcome.exists_of_check h2
  rw [Bool.and_eq_true] at h4
  obtain ⟨r, h5, h6⟩ := Outcome.exists_of_check h4.1
  obtain ⟨r', h7, h8⟩ := Outcome.exists_of_check h4.2
  rw [decide_eq_true_eq] at h6 h8
  subst h6 h8
  refine ⟨T, F, _, h1, h3, h5, ⟨by decide, ?_⟩, h7⟩
  decide +kernel

/-- The hypotheses of `c98_stale` can be met: the file has the answers for two queries, there is only one now. -/
example : ∃ T F, exampleTree plane5 5 = .ok T ∧ forest5 (metricL2Sq ℚ 2) = .ok F ∧
    runDataset T (fun _ => refQueue ℚ _) 6 F [![2, 0]] (some [⟨0, 4⟩, ⟨4, 1⟩]) 5 ⟨7, 7⟩ = .ub := by
  have h : (exampleTree plane5 5).check (fun T => (forest5 (metricL2Sq ℚ 2)).check fun F =>
      match runDataset T (fun _ => refQueue ℚ _) 6 F [![2, 0]] (some [⟨0, 4⟩, ⟨4, 1⟩]) 5 ⟨7, 7⟩ with
      | .ub => true
      | _ => false) = true := by
    decide +kernel
  obtain ⟨T, h1, h2⟩ := Outcome.exists_of_check h
  obtain ⟨F, h3, h4⟩ := Outcome.exists_of_check h2
  refine ⟨T, F, h1, h3, ?_⟩
  split at h4
  · assumption
  · simp at h4

end Pico.Props
