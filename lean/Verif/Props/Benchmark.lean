import Verif.Model.Benchmark
import Verif.Model.Gtest
import Verif.Proof.Rounding
import Verif.Props.Box
import Verif.Props.Builder
import Verif.Props.Cover
import Verif.Props.Formats
import Verif.Props.Nearest
import Verif.Props.Query
import Verif.Ref

/-!
# C146: the benchmarks

What the loops of the benchmarks of the kd_tree and the cover tree add up.
-/

set_option linter.unusedSectionVars false

namespace Pico.Props

open Spec Bench

/-! ### The loops -/

/-- A loop whose searches find `count p` results for `p`, whatever `results` held, adds these numbers up. -/
theorem counted_sum {ρ π : Type} {search : π → List ρ → Outcome (List ρ)} {count : π → Nat} {test : List π}
    (h : ∀ p ∈ test, ∀ l, ∃ out, search p l = .ok out ∧ out.length = count p) (l : List ρ) (s : Nat) :
    ∃ out, counted search test (l, s % 2 ^ 64) = .ok (out, (s + (test.map count).sum) % 2 ^ 64) := by
  induction test generalizing l s with
  | nil => exact ⟨l, by simp [counted]⟩
  | cons p ps ih =>
    obtain ⟨out, h1, h2⟩ := h p (by simp) l
    obtain ⟨out', h3⟩ := ih (fun q hq => h q (List.mem_cons_of_mem _ hq)) out (s + out.length)
    refine ⟨out', ?_⟩
    unfold counted
    rw [h1]
    show counted search ps (out, (s % 2 ^ 64 + out.length) % 2 ^ 64) = _
    rw [Nat.mod_add_mod, h3, List.map_cons, List.sum_cons, h2, Nat.add_assoc]

theorem counted_append {ρ π : Type} (search : π → List ρ → Outcome (List ρ)) (A B : List π) (s : List ρ × Nat) :
    counted search (A ++ B) s = (counted search A s).bind (counted search B) := by
  induction A generalizing s with
  | nil => rfl
  | cons p A ih =>
    show ((search p s.1).bind fun out => counted search (A ++ B) _) = ((search p s.1).bind _).bind _
    cases search p s.1 with
    | ub => rfl
    | oof => rfl
    | ok out => exact ih _

/-- The loop over groups is the loop over all test points. -/
theorem grouped_eq {ρ π : Type} (search : π → List ρ → Outcome (List ρ)) {group : Nat} (hg : 0 < group) (test : List π)
    (fuel pi : Nat) (hf : test.length - pi < fuel) (s : List ρ × Nat) :
    grouped search group test fuel pi s = counted search (test.drop pi) s := by
  induction fuel generalizing pi s with
  | zero => omega
  | succ fuel ih =>
    unfold grouped
    split_ifs with h
    · have e : test.drop pi = slice test pi (min (pi + group) test.length) ++ test.drop (min (pi + group) test.length) := by
        unfold slice
        conv_lhs => rw [← List.take_append_drop (min (pi + group) test.length - pi) (test.drop pi)]
        rw [List.drop_drop]
        congr 2
        omega
      rw [e, counted_append]
      congr 1
      funext t
      exact ih _ (by omega) t
    · rw [List.drop_of_length_le (by omega)]
      rfl

/-! ### Programs -/

section
variable {α : Type} [LinearOrder α] [Zero α] [One α] [Add α] [Sub α] [Neg α] [Mul α] {d : Nat} {N : Num α} {S : Std}
  {leaf fuel : Nat} {b : Benchmark α d}

/-- C146 (construction): the tree of the benchmark is built, if the coordinates are between two numbers between which the
arithmetic does not overflow. -/
theorem c146_tree {lo hi : α} (hS : SplitSafe N lo hi) (hd : 0 < d) (hb : b.pointsTree ≠ [])
    (hl : 1 ≤ leaf ∧ leaf < 2 ^ 31) (hp : ∀ x ∈ b.pointsTree, ∀ j, lo ≤ x j ∧ x j ≤ hi)
    (hN : N.low ≤ hi ∧ lo ≤ N.big) (S : Std) : ∃ fuel T, ∀ f ≥ fuel, tree N S leaf b f = .ok T := by
  refine c22_terminates_partial (euclideanTag α d) (metricL2Sq α d) hS hd (List.length_pos_of_ne_nil hb) (by simp)
    (fun m hm => ?_) (fun i hi j => ?_) hN (by simp)
  · cases hm; exact hl
  · unfold at'
    rw [List.getD_eq_getElem _ _ hi]
    exact hp _ (List.getElem_mem hi) j

/-- C146 (k nearest neighbors): the sum is the number of test points times `k`, or times the number of points if these
are fewer, in any arithmetic. -/
theorem c146_knn {T : KdTree α d (Branch1 α d)} (h : tree N S leaf b fuel = .ok T) (hb : b.pointsTree ≠ []) {k : Nat}
    (hk : 0 < k) : ∃ out, knnCt N S leaf k b fuel =
      .ok (out, (b.pointsTest.length * min k b.pointsTree.length) % 2 ^ 64) := by
  obtain ⟨out, ho⟩ := counted_sum (search := fun p results => T.searchKnn p k results)
    (count := fun _ => min k b.pointsTree.length) (test := b.pointsTest)
    (fun p _ l => c27_defined_partial h p k l hk (List.length_pos_of_ne_nil hb)) [] 0
  refine ⟨out, ?_⟩
  unfold knnCt
  rw [h]
  show counted _ _ ([], 0 % 2 ^ 64) = _
  rw [ho]
  simp

/-- C146 is false for an empty file of scans: the search for neighbors in no points is undefined behaviour. -/
theorem c146_knn_empty {T : KdTree α d (Branch1 α d)} (h : tree N S leaf b fuel = .ok T) (hb : b.pointsTree = [])
    (ht : b.pointsTest ≠ []) (k : Nat) : knnCt N S leaf k b fuel = .ub := by
  have hn : T.n = 0 := by rw [(KdTree.make_ok h).2.2.2.2.1, hb]; rfl
  unfold knnCt
  rw [h]
  show counted _ _ _ = _
  cases hp : b.pointsTest with
  | nil => exact absurd hp ht
  | cons p ps =>
    unfold counted
    have : T.searchKnn p k [] = .ub := by
      simp [KdTree.searchKnn, hn, KdTree.resize, KdTree.searchKnnRange, knnInit, Outcome.bind]
    rw [this]
    rfl

/-- The number of points that lie between `lo` and `hi` in each coordinate. -/
def between (v : List (Pt α d)) (lo hi : Pt α d) : Nat := v.countP fun x => decide (∀ j, lo j ≤ x j ∧ x j ≤ hi j)

theorem countP_at (v : List (Pt α d)) (p : Pt α d → Bool) :
    ((List.range v.length).filter fun i => p (at' v i)).length = v.countP p := by
  rw [← List.countP_eq_length_filter]
  have : v = (List.range v.length).map (at' v) := by
    apply List.ext_getElem
    · simp
    · intro i h1 h2
      simp [at', List.getElem?_eq_getElem h1]
  conv_rhs => rw [this, List.countP_map]
  rfl

theorem length_of_selection {n : Nat} {p : Nat → Prop} [DecidablePred p] {out : List Nat} (h : IsSelection n p out) :
    out.length = ((List.range n).filter fun i => decide (p i)).length := by
  apply List.Perm.length_eq
  rw [List.perm_ext_iff_of_nodup h.1 (List.nodup_range.filter _)]
  intro i
  rw [h.2 i, List.mem_filter, List.mem_range, decide_eq_true_eq]

/-- C146 (boxes): in any arithmetic, whatever the leaf size and the standard library, the sum is the number of pairs of a
test point `p` and a point between `p - radius` and `p + radius`, as they are computed. -/
theorem c146_box {T : KdTree α d (Branch1 α d)} (h : tree N S leaf b fuel = .ok T) (radius : α) :
    ∃ out, boxCt N S leaf radius b fuel = .ok (out,
      (b.pointsTest.map fun p => between b.pointsTree (fun j => p j - radius) fun j => p j + radius).sum % 2 ^ 64) := by
  obtain ⟨out, ho⟩ := counted_sum
    (search := fun p results => .ok (T.searchBox (subScalar p radius) (addScalar p radius) results))
    (count := fun p => between b.pointsTree (fun j => p j - radius) fun j => p j + radius) (test := b.pointsTest)
    (fun p _ l => ⟨_, rfl, by
      have hsel := c08_box h trivial (subScalar p radius) (addScalar p radius) l
      rw [length_of_selection (p := fun i => ∀ j, p j - radius ≤ at' b.pointsTree i j ∧ at' b.pointsTree i j ≤ p j + radius)
        hsel]
      exact countP_at b.pointsTree fun x => decide (∀ j, p j - radius ≤ x j ∧ x j ≤ p j + radius)⟩) [] 0
  refine ⟨out, ?_⟩
  unfold boxCt
  rw [h]
  show counted _ _ ([], 0 % 2 ^ 64) = _
  rw [ho, Nat.zero_add]

/-- C146 (radius, any arithmetic): no more than the pairs whose computed distance is below the computed square. -/
theorem c146_radius_le {T : KdTree α d (Branch1 α d)} (h : tree N S leaf b fuel = .ok T)
    (sorter : StdSort (Neighbor α)) (radius : α) :
    ∃ out total, radiusCt N S sorter leaf radius b fuel = .ok (out, total % 2 ^ 64) ∧
      total ≤ (b.pointsTest.map fun p => b.pointsTree.countP fun x =>
        decide ((metricL2Sq α d).dist p x < radius * radius)).sum := by
  obtain ⟨out, ho⟩ := counted_sum
    (search := fun p results => .ok (T.searchRadius sorter p (radius * radius) results false))
    (count := fun p => (T.searchRadius sorter p (radius * radius) [] false).length) (test := b.pointsTest)
    (fun p _ l => ⟨_, rfl, rfl⟩) [] 0
  refine ⟨out, (b.pointsTest.map fun p => (T.searchRadius sorter p (radius * radius) [] false).length).sum, ?_, ?_⟩
  · unfold radiusCt
    rw [h]
    show counted _ _ ([], 0 % 2 ^ 64) = _
    rw [ho, Nat.zero_add]
  · apply List.sum_le_sum
    intro p _
    obtain ⟨h1, h2, -⟩ := c44_radius h p sorter (radius * radius) [] false
    rw [← countP_at, ← List.length_map (f := Neighbor.index)]
    apply List.Subperm.length_le
    apply h1.subperm
    intro i hi
    obtain ⟨a, ha, rfl⟩ := List.mem_map.1 hi
    obtain ⟨g1, g2, g3⟩ := h2 a ha
    rw [List.mem_filter, List.mem_range, decide_eq_true_eq, ← g2]
    exact ⟨g1, g3⟩

end

/-! ### Rounding -/

section
variable {K : Type} [Field K] [LinearOrder K] [IsStrictOrderedRing K] {R : Rounding K} {d : Nat}

/-- C146 (boxes with rounding): the points counted for `p` are those at most `radius` away in each coordinate, in exact
arithmetic, and beyond these only points exactly on the rounded border. -/
theorem c146_box_rounded (p x : Pt R.F d) (radius : R.F) :
    (∀ j, p j - radius ≤ x j ∧ x j ≤ p j + radius) ↔
      ∀ j, ((p j).1 - radius.1 ≤ (x j).1 ∨ x j = p j - radius) ∧ ((x j).1 ≤ (p j).1 + radius.1 ∨ x j = p j + radius) := by
  refine forall_congr' fun j => and_congr ?_ ?_
  · constructor
    · intro h
      by_cases h' : (p j).1 - radius.1 ≤ (x j).1
      · exact .inl h'
      · refine .inr (le_antisymm ?_ h)
        show (x j).1 ≤ R.rd ((p j).1 - radius.1)
        rw [← (x j).2]
        exact R.mono _ _ (not_le.1 h').le
    · rintro (h | h)
      · show R.rd ((p j).1 - radius.1) ≤ (x j).1
        rw [← (x j).2]
        exact R.mono _ _ h
      · exact h.ge
  · constructor
    · intro h
      by_cases h' : (x j).1 ≤ (p j).1 + radius.1
      · exact .inl h'
      · refine .inr (le_antisymm h ?_)
        show R.rd ((p j).1 + radius.1) ≤ (x j).1
        rw [← (x j).2]
        exact R.mono _ _ (not_le.1 h').le
    · rintro (h | h)
      · show (x j).1 ≤ R.rd ((p j).1 + radius.1)
        rw [← (x j).2]
        exact R.mono _ _ h
      · exact h.le

end

/-! ### Exact arithmetic -/

section
variable {K : Type} [Field K] [LinearOrder K] [IsStrictOrderedRing K] {d : Nat} {N : Num K} {S : Std}
  {leaf fuel : Nat} {b : Benchmark K d}

/-- C146 (radius): in exact arithmetic the sum is the number of pairs of a test point and a point less than `radius` away;
these are at most as many as the benchmark of boxes counts. -/
theorem c146_radius {T : KdTree K d (Branch1 K d)} (h : tree N S leaf b fuel = .ok T) (hb : b.pointsTree ≠ [])
    (hlow : N.low ≤ N.big) (hN : ∀ x ∈ b.pointsTree, ∀ j, N.low ≤ x j ∧ x j ≤ N.big) (sorter : StdSort (Neighbor K)) {radius : K}
    (hr : 0 ≤ radius) :
    ∃ out total, radiusCt N S sorter leaf radius b fuel = .ok (out, total % 2 ^ 64) ∧
      total = (b.pointsTest.map fun p => b.pointsTree.countP fun x => decide (l2Sq p x < radius ^ 2)).sum ∧
      total ≤ (b.pointsTest.map fun p =>
        between b.pointsTree (fun j => p j - radius) fun j => p j + radius).sum := by
  have hR : Representable N (at' b.pointsTree) b.pointsTree.length
      (⟨S, .sliding, .maxLeafSize leaf, .fromSpace, 32⟩ : BuildOpts K d) := by
    refine ⟨hlow, fun i hi j => ?_, trivial, nofun⟩
    unfold at'
    rw [List.getD_eq_getElem _ _ hi]
    exact hN _ (List.getElem_mem hi) j
  obtain ⟨out, ho⟩ := counted_sum
    (search := fun p results => .ok (T.searchRadius sorter p (radius * radius) results false))
    (count := fun p => b.pointsTree.countP fun x => decide (l2Sq p x < radius ^ 2)) (test := b.pointsTest)
    (fun p _ l => ⟨_, rfl, by
      have := (c04_radius_l2 h hR (List.length_pos_of_ne_nil hb) p sorter (radius * radius) l false).1.length_eq
      rw [this]
      unfold all
      rw [List.filter_map, List.length_map, ← pow_two]
      exact countP_at b.pointsTree fun x => decide (l2Sq p x < radius ^ 2)⟩) [] 0
  refine ⟨out, _, ?_, rfl, ?_⟩
  · unfold radiusCt
    rw [h]
    show counted _ _ ([], 0 % 2 ^ 64) = _
    rw [ho, Nat.zero_add]
  · apply List.sum_le_sum
    intro p _
    apply List.countP_mono_left
    intro x _ hx
    rw [decide_eq_true_eq] at hx ⊢
    intro j
    have h1 : (p j - x j) ^ 2 ≤ l2Sq p x := Finset.single_le_sum (f := fun j => (p j - x j) ^ 2)
      (fun i _ => sq_nonneg _) (Finset.mem_univ j)
    have h2 := abs_le.1 (abs_le_of_sq_le_sq (h1.trans hx.le) hr)
    constructor <;> linarith [h2.1, h2.2]

/-- C146 (cover tree): for a metric that keeps the triangle inequality the sum is the one of the benchmark of the kd_tree. -/
theorem c146_cover {L : Type} (B : Leveling K L) (P : StdPart (CNode L Unit)) (M : Metric K d)
    (sorter : StdSort (CNode L K × K)) {indices : List Nat} (hi : indices.Perm (List.range b.pointsTree.length))
    (hb : b.pointsTree ≠ []) {T : CoverTree K d L}
    (h : CoverTree.make B P M N (at' b.pointsTree) b.pointsTree.length indices fuel = .ok T)
    (hf : b.pointsTree.length ≤ fuel ∧ b.pointsTest.length < fuel)
    (htri : ∀ q ∈ b.pointsTest, ∀ x ∈ b.pointsTree, ∀ y ∈ b.pointsTree, M.dist q x ≤ M.dist q y + M.dist x y)
    (hbig : ∀ q ∈ b.pointsTest, ∀ x ∈ b.pointsTree, M.dist q x < N.big) {k : Nat} (hk : 0 < k) :
    ∃ out, coverKnn B P M N sorter indices k b fuel =
      .ok (out, (b.pointsTest.length * min k b.pointsTree.length) % 2 ^ 64) := by
  have hat : ∀ i < b.pointsTree.length, at' b.pointsTree i ∈ b.pointsTree := fun i hi => by
    unfold at'
    rw [List.getD_eq_getElem _ _ hi]
    exact List.getElem_mem hi
  obtain ⟨out, ho⟩ := counted_sum (search := fun p results => T.searchKnn sorter fuel p k results)
    (count := fun _ => min k b.pointsTree.length) (test := b.pointsTest)
    (fun p hp l => by
      obtain ⟨out, h1, h2⟩ := c48_knn B P M N (at' b.pointsTree) b.pointsTree.length (List.length_pos_of_ne_nil hb)
        indices hi fuel h sorter fuel hf.1 p (fun m hm n hn => htri p hp _ (hat m hm) _ (hat n hn))
        (fun i hi => hbig p hp _ (hat i hi)) k hk l
      exact ⟨out, h1, h2.length⟩) [] 0
  refine ⟨out, ?_⟩
  unfold coverKnn
  rw [h]
  show grouped _ _ _ _ _ ([], 0 % 2 ^ 64) = _
  rw [grouped_eq _ (by norm_num) _ _ _ (by omega), List.drop_zero, ho]
  simp

end

/-- C146 (files): the benchmarks run on the points that were written to the files. -/
theorem c146_files {α : Type} {d : Nat} {c : Codec (Pt α d)} (hc : 0 < c.size) {v w : List (Pt α d)}
    (hv : ∀ x ∈ v, c.Good x) (hw : ∀ x ∈ w, c.Good x) (hv' : v ≠ []) (hw' : w ≠ []) (pad : Nat → Byte)
    (file0 file1 : Option (List Byte)) :
    Benchmark.make c (writeBin pad c v file0) (writeBin pad c w file1) = .ok ⟨v, w⟩ [] := by
  unfold Benchmark.make
  rw [c74_round_trip_partial hc hv hv', c74_round_trip_partial hc hw hw']
  rfl

/-- With `float` coordinates a point at distance two from the test point is counted by a box with half the width one. -/
theorem c146_box_beyond : (Gtest.lit 16777220 : (ieee 23 (-149)).F) = Gtest.lit 16777218 + Gtest.lit 1 ∧
    (Gtest.lit 16777220 : (ieee 23 (-149)).F).1 - (Gtest.lit 16777218 : (ieee 23 (-149)).F).1 = 2 := by
  constructor
  · apply Subtype.ext
    decide +kernel
  · decide +kernel

/-! ### A case -/

/-- Five points and two test points, one of which is on the border of boxes and balls. -/
def benchFive : Benchmark ℚ 2 := ⟨[![0, 0], ![3, 0], ![0, 4], ![1, 1], ![2, 5]], [![0, 0], ![1, 2]]⟩

example : ∃ T, tree Ref.ratNum Ref.std 1 benchFive 20 = .ok T ∧
    (boxCt Ref.ratNum Ref.std 1 2 benchFive 20).check (fun s => s.2 == 6) = true ∧
    (radiusCt Ref.ratNum Ref.std (Ref.sorter _) 1 2 benchFive 20).check (fun s => s.2 == 3) = true ∧
    (knnCt Ref.ratNum Ref.std 1 4 benchFive 20).check (fun s => s.2 == 8) = true ∧
    (knnCt Ref.ratNum Ref.std 1 12 benchFive 20).check (fun s => s.2 == 10) = true := by
  obtain ⟨T, h, -⟩ := Outcome.exists_of_check (x := tree Ref.ratNum Ref.std 1 benchFive 20) (p := fun _ => true)
    (by decide +kernel)
  exact ⟨T, h, by decide +kernel, by decide +kernel, by decide +kernel, by decide +kernel⟩

/-- The benchmark of the cover tree with points on a line. -/
example : (coverKnn base2 (stablePart _) (metricL1 ℚ 1) Ref.ratNum (Ref.sorter _) [2, 0, 1] 2
    ⟨[![0], ![5], ![8]], [![1], ![7], ![20]]⟩ 60).check (fun s => s.2 == 6) = true := by decide +kernel

end Pico.Props
