import Verif.Proof.ForestSearch
import Verif.Proof.RoundingError

/-!
# The priority search of the kd forest in rounded arithmetic

As for the kd tree the distance of a node drifts away from the sum of its offsets with every step down.
-/

set_option linter.unusedSectionVars false

namespace Pico

open Spec

section Priority
variable {K : Type} [Field K] [LinearOrder K] [IsStrictOrderedRing K] {R : Rounding K} {d : Nat} {u : K}

/-- The computed contribution of axis `j` to the distance from `q` to a box. -/
def roundedGap (M : Metric R.F d) (q : Pt R.F d) (box : Box R.F d) (j : Fin d) : R.F :=
  if q j ≤ box.min j then M.one (box.min j - q j)
  else if box.max j ≤ q j then M.one (box.max j - q j) else 0

theorem Rounding.sub_nonneg {a b : R.F} (h : a ≤ b) : 0 ≤ b - a := by
  rw [← R.laws.sub_self a]
  exact R.laws.sub_mono _ _ _ _ h le_rfl

variable {M : Metric R.F d} (hM : AxisMetric M) (q : Pt R.F d)
include hM

theorem roundedGap_nonneg (box : Box R.F d) (j : Fin d) : 0 ≤ roundedGap M q box j := by
  unfold roundedGap
  split_ifs
  exacts [hM.nonneg _, hM.nonneg _, le_rfl]

theorem roundedGap_le {box : Box R.F d} {x : Pt R.F d} {j : Fin d} (h : box.min j ≤ x j ∧ x j ≤ box.max j) :
    roundedGap M q box j ≤ M.one (q j - x j) := by
  unfold roundedGap
  split_ifs with h1 h2
  · rw [hM.symm (q j)]
    exact hM.mono _ _ (R.sub_nonneg h1) (R.laws.sub_mono _ _ _ _ h.1 le_rfl)
  · rw [hM.symm (box.max j)]
    exact hM.mono _ _ (R.sub_nonneg h2) (R.laws.sub_mono _ _ _ _ le_rfl h.2)
  · exact hM.nonneg _

theorem roundedGap_mono {a b : Box R.F d} {j : Fin d} (hb : b.min j ≤ b.max j) (h1 : a.min j ≤ b.min j)
    (h2 : b.max j ≤ a.max j) : roundedGap M q a j ≤ roundedGap M q b j := by
  by_cases c1 : q j ≤ a.min j
  · rw [roundedGap, if_pos c1, roundedGap, if_pos (c1.trans h1)]
    exact hM.mono _ _ (R.sub_nonneg c1) (R.laws.sub_mono _ _ _ _ h1 le_rfl)
  · by_cases c2 : a.max j ≤ q j
    · rw [roundedGap, if_neg c1, if_pos c2, roundedGap]
      split_ifs with c3 c4
      · have e1 : a.max j = q j := le_antisymm c2 (c3.trans (hb.trans h2))
        have e2 : b.min j = q j := le_antisymm (hb.trans (h2.trans c2)) c3
        rw [e1, e2]
      · rw [hM.symm (a.max j), hM.symm (b.max j)]
        exact hM.mono _ _ (R.sub_nonneg c2) (R.laws.sub_mono _ _ _ _ le_rfl h2)
      · exact absurd (h2.trans c2) c4
    · rw [roundedGap, if_neg c1, if_neg c2]
      exact roundedGap_nonneg hM q b j

omit hM in
/-- One update of the node distance. -/
theorem step_bound (hu : R.Error u) (hu0 : 0 ≤ u) {D old new : R.F} {s S c : K} (hold : old.1 ≤ s)
    (hnew : 0 ≤ new.1) (hle : s - old.1 + new.1 ≤ S) (hc : 1 ≤ c) (hD : D.1 ≤ s + (c - 1) * S) :
    (D - old + new).1 ≤ s - old.1 + new.1 + ((1 + u) ^ 2 * c - 1) * S := by
  have hS : 0 ≤ S := by linarith
  have hcS : 0 ≤ (c - 1) * S := mul_nonneg (by linarith) hS
  have b1 : (D - old).1 ≤ (1 + u) * (s - old.1 + (c - 1) * S) := by
    rw [R.sub_eq]
    refine hu.le hu0 ?_ (by linarith)
    rw [R.val_neg]
    linarith
  have hux : new.1 ≤ (1 + u) * new.1 := by nlinarith
  have b2 : (D - old + new).1 ≤ (1 + u) * ((1 + u) * (s - old.1 + new.1 + (c - 1) * S)) := by
    refine hu.le hu0 ?_ (mul_nonneg (by linarith) (by linarith))
    linarith
  refine b2.trans ?_
  have hsq : 1 ≤ (1 + u) ^ 2 := one_le_pow₀ (by linarith)
  nlinarith [mul_le_mul_of_nonneg_left hle (by linarith : 0 ≤ (1 + u) ^ 2 - 1)]

/-- The exact sum of the computed contributions of the axes to the distance of point `i`. -/
def axisSum (M : Metric R.F d) (q : Pt R.F d) (pts : Nat → Pt R.F d) (i : Nat) : K :=
  ∑ j, (M.one (q j - pts i j)).1

/-- A node may be in the queue with distance `D`: after `m` updates `D` exceeds the sum of the contributions of the
box of the node by a part of the distance of any of its points. -/
def QueueNear (M : Metric R.F d) (q : Pt R.F d) (pts : Nat → Pt R.F d) (indices : List Nat) (u : K) (H : Nat)
    (D : R.F) (t : Tree (Branch2 R.F d)) : Prop :=
  ∃ m o seg box pre post, m + Spec.height t ≤ H ∧ Built pts setBranchTopological o t seg box ∧ o = pre.length ∧
    indices = pre ++ (seg ++ post) ∧ (∀ r ∈ ranges t, r.1 < r.2) ∧
    ∀ i ∈ seg, D.1 ≤ ∑ j, (roundedGap M q box j).1 + ((1 + u) ^ (2 * m) - 1) * axisSum M q pts i

theorem gapSum_le {pts : Nat → Pt R.F d} {o : Nat} {t : Tree (Branch2 R.F d)} {seg : List Nat} {box : Box R.F d}
    (hB : Built pts setBranchTopological o t seg box) {i : Nat} (hi : i ∈ seg) :
    ∑ j, (roundedGap M q box j).1 ≤ axisSum M q pts i :=
  Finset.sum_le_sum fun j _ => roundedGap_le hM q (hB.mem i hi j)

theorem axisSum_nonneg (pts : Nat → Pt R.F d) (i : Nat) : 0 ≤ axisSum M q pts i :=
  Finset.sum_nonneg fun _ _ => hM.nonneg _

theorem QueueNear.low {pts : Nat → Pt R.F d} {indices : List Nat} {H : Nat} {D : R.F} {t : Tree (Branch2 R.F d)}
    (hu0 : 0 ≤ u) (h : QueueNear M q pts indices u H D t) :
    ∀ i ∈ t.elems indices, D.1 ≤ (1 + u) ^ (2 * H) * axisSum M q pts i := by
  obtain ⟨m, o, seg, box, pre, post, hm, hB, ho, rfl, -, hD⟩ := h
  intro i hi
  rw [hB.elems_eq pre post ho] at hi
  have h1 := hD i hi
  have h2 := gapSum_le hM q hB hi
  have h3 : (1 + u) ^ (2 * m) ≤ (1 + u) ^ (2 * H) := pow_le_pow_right₀ (by linarith) (by omega)
  have h4 := mul_le_mul_of_nonneg_right h3 (axisSum_nonneg hM q pts i)
  linarith

theorem QueueNear.branch (hu : R.Error u) (hu0 : 0 ≤ u) (h0 : M.one 0 = 0) {pts : Nat → Pt R.F d}
    {indices : List Nat} {H : Nat} {D : R.F} {data : Branch2 R.F d} {l r : Tree (Branch2 R.F d)}
    (h : QueueNear M q pts indices u H D (.branch data l r)) :
    let p := pickPriority M q data
    QueueNear M q pts indices u H D (if p.1 then l else r) ∧
      QueueNear M q pts indices u H (D - p.2.1 + p.2.2) (if p.1 then r else l) := by
  obtain ⟨m, o, seg, box, pre, post, hm, hB, ho, hind, hne, hD⟩ := h
  have L := R.laws
  cases hB with
  | @branch _ _ _ segL segR boxL boxR dim hl hr hlr =>
    have hH : Spec.height (Tree.branch (setBranchTopological boxL boxR dim) l r) =
      max (Spec.height l) (Spec.height r) + 1 := rfl
    rw [hH] at hm
    have hml : m + 1 + Spec.height l ≤ H := by have := le_max_left (Spec.height l) (Spec.height r); omega
    have hmr : m + 1 + Spec.height r ≤ H := by have := le_max_right (Spec.height l) (Spec.height r); omega
    have hnl : ∀ x ∈ ranges l, x.1 < x.2 := fun x hx => hne x (by rw [ranges_branch]; simp [hx])
    have hnr : ∀ x ∈ ranges r, x.1 < x.2 := fun x hx => hne x (by rw [ranges_branch]; simp [hx])
    have pl := hl.proper hnl
    have pr := hr.proper hnr
    have il : indices = pre ++ (segL ++ (segR ++ post)) := by rw [hind]; simp
    have ir : indices = (pre ++ segL) ++ (segR ++ post) := by rw [hind]; simp
    have or : o + segL.length = (pre ++ segL).length := by simp [ho]
    have gl : ∀ j, roundedGap M q (boxL.fitBox boxR) j ≤ roundedGap M q boxL j := fun j =>
      roundedGap_mono hM q (pl j) (by rw [Box.fitBox_min]; exact min_le_left _ _)
        (by rw [Box.fitBox_max]; exact le_max_left _ _)
    have gr : ∀ j, roundedGap M q (boxL.fitBox boxR) j ≤ roundedGap M q boxR j := fun j =>
      roundedGap_mono hM q (pr j) (by rw [Box.fitBox_min]; exact min_le_right _ _)
        (by rw [Box.fitBox_max]; exact le_max_right _ _)
    have hmin : (boxL.fitBox boxR).min dim = boxL.min dim := by
      rw [Box.fitBox_min, min_eq_left ((pl dim).trans hlr)]
    have hmax : (boxL.fitBox boxR).max dim = boxR.max dim := by
      rw [Box.fitBox_max, max_eq_right (hlr.trans (pr dim))]
    have first : ∀ (b : Box R.F d) (sg : List Nat), (∀ i ∈ sg, i ∈ segL ++ segR) →
        (∀ j, roundedGap M q (boxL.fitBox boxR) j ≤ roundedGap M q b j) →
        ∀ i ∈ sg, D.1 ≤ ∑ j, (roundedGap M q b j).1 + ((1 + u) ^ (2 * m) - 1) * axisSum M q pts i := by
      intro b sg hsub hg i hi
      have h1 := hD i (hsub i hi)
      have h2 : ∑ j, (roundedGap M q (boxL.fitBox boxR) j).1 ≤ ∑ j, (roundedGap M q b j).1 :=
        Finset.sum_le_sum fun j _ => hg j
      linarith
    have second : ∀ (old new : R.F) (b : Box R.F d) (sg : List Nat) (o' : Nat) (t' : Tree (Branch2 R.F d)),
        Built pts setBranchTopological o' t' sg b → (∀ i ∈ sg, i ∈ segL ++ segR) →
        old = roundedGap M q (boxL.fitBox boxR) dim → new = roundedGap M q b dim →
        (∀ j, roundedGap M q (boxL.fitBox boxR) j ≤ roundedGap M q b j) →
        ∀ i ∈ sg, (D - old + new).1 ≤
          ∑ j, (roundedGap M q b j).1 + ((1 + u) ^ (2 * (m + 1)) - 1) * axisSum M q pts i := by
      intro old new b sg o' t' hb hsub e1 e2 hg i hi
      have h1 := hD i (hsub i hi)
      have h2 := gapSum_le hM q hb hi
      have h3 : ∑ j, (roundedGap M q (boxL.fitBox boxR) j).1 - old.1 + new.1 ≤ ∑ j, (roundedGap M q b j).1 := by
        rw [e1, e2, ← Finset.add_sum_erase _ _ (Finset.mem_univ dim),
          ← Finset.add_sum_erase Finset.univ (fun j => (roundedGap M q b j).1) (Finset.mem_univ dim)]
        have : ∑ j ∈ Finset.univ.erase dim, (roundedGap M q (boxL.fitBox boxR) j).1 ≤
            ∑ j ∈ Finset.univ.erase dim, (roundedGap M q b j).1 := Finset.sum_le_sum fun j _ => hg j
        linarith
      have h4 : old.1 ≤ ∑ j, (roundedGap M q (boxL.fitBox boxR) j).1 := by
        rw [e1]
        exact Finset.single_le_sum (f := fun j => (roundedGap M q (boxL.fitBox boxR) j).1)
          (fun j _ => roundedGap_nonneg hM q _ j) (Finset.mem_univ dim)
      have h5 := step_bound hu hu0 h4 (by rw [e2]; exact roundedGap_nonneg hM q b dim) (h3.trans h2)
        (one_le_pow₀ (by linarith : 1 ≤ 1 + u)) h1
      rw [show (1 + u) ^ (2 * (m + 1)) = (1 + u) ^ 2 * (1 + u) ^ (2 * m) by rw [← pow_add]; congr 1; omega]
      linarith
    have sl : ∀ i ∈ segL, i ∈ segL ++ segR := fun i hi => List.mem_append_left _ hi
    have sr : ∀ i ∈ segR, i ∈ segL ++ segR := fun i hi => List.mem_append_right _ hi
    dsimp only [pickPriority, setBranchTopological]
    by_cases hc : boxL.max dim + boxR.min dim - q dim - q dim > 0
    · simp only [if_pos hc, if_true]
      have hq : q dim < boxR.min dim := by
        by_contra hlt
        push Not at hlt
        have h2 := L.add_mono _ _ _ _ (hlr.trans hlt) hlt
        have h3 := L.sub_mono _ _ _ _ h2 (le_refl (q dim))
        rw [L.double] at h3
        have h4 := L.sub_mono _ _ _ _ h3 (le_refl (q dim))
        rw [L.sub_self] at h4
        exact absurd hc (not_lt.2 h4)
      refine ⟨⟨m, o, segL, boxL, pre, segR ++ post, by omega, hl, ho, il, hnl, first boxL segL sl gl⟩,
        m + 1, _, segR, boxR, pre ++ segL, post, hmr, hr, or, ir, hnr,
        second _ _ boxR segR _ _ hr sr ?_ ?_ gr⟩
      · unfold roundedGap
        rw [hmin, hmax]
        have : ¬ boxR.max dim ≤ q dim := not_le.2 (hq.trans_le (pr dim))
        split_ifs with c1 c2
        · exact absurd c2 (not_le.2 c1)
        · rfl
        · rfl
        · exact absurd (not_lt.1 c1) ‹_›
      · unfold roundedGap
        rw [if_pos hq.le]
    · simp only [if_neg hc, if_false, Bool.false_eq_true]
      have hq : boxL.max dim ≤ q dim := by
        by_contra hlt
        push Not at hlt
        apply hc
        have h2 := L.add_mono _ _ _ _ (le_refl (boxL.max dim)) hlr
        have h3 := L.sub_mono _ _ _ _ h2 hlt.le
        rw [L.double] at h3
        exact lt_of_lt_of_le (L.sub_pos _ _ hlt) (L.sub_mono _ _ _ _ h3 le_rfl)
      refine ⟨⟨m, _, segR, boxR, pre ++ segL, post, by omega, hr, or, ir, hnr, first boxR segR sr gr⟩,
        m + 1, o, segL, boxL, pre, segR ++ post, hml, hl, ho, il, hnl,
        second _ _ boxL segL _ _ hl sl ?_ ?_ gl⟩
      · unfold roundedGap
        rw [hmin, hmax]
        have hL := pl dim
        have z : q dim ≤ boxL.min dim → M.one (boxL.min dim - q dim) = 0 := by
          intro h
          rw [le_antisymm (hL.trans hq) h, L.sub_self, h0]
        split_ifs with c1 c2 c3 c4
        · exact (z c2).symm
        · exact absurd c1 (not_lt.2 c3)
        · rfl
        · have : boxR.max dim = q dim :=
            le_antisymm (not_lt.1 c1) (c4.trans (hL.trans (hlr.trans (pr dim))))
          rw [this, L.sub_self, h0, z c4]
        · rfl
        · exact absurd (not_lt.1 c1) ‹_›
      · unfold roundedGap
        have hL := pl dim
        split_ifs with c1
        · have e1 : boxL.min dim = q dim := le_antisymm (hL.trans hq) c1
          have e2 : boxL.max dim = q dim := le_antisymm hq (c1.trans hL)
          rw [e1, e2]
        · rfl

/-- Rounded arithmetic: points that are not presented are, up to the accumulated rounding error, at least as far
away as the final `max()`, when the budget suffices. -/
theorem prioritySearch_near {σ : Type} (hu : R.Error u) (hu0 : 0 ≤ u) (hu1 : u ≤ 1)
    {Q : StdQueue R.F (Tree (Branch2 R.F d))} (h0 : M.one 0 = 0) {n : Nat} {x : Pt R.F d} {maxLeaves fuel : Nat}
    {V : Visitor R.F σ} {Inv : σ → Prop} {t : RotTree R.F d}
    (hV : Shrinks V (fun i => M.dist (rotatePoint t.rotation x) (t.pts i)) (· < n) Inv) {box : Box R.F d}
    (hB : Built t.pts setBranchTopological 0 t.data.root t.data.indices box) (hs : TreeShape n t)
    (hf : (ranges t.data.root).length < fuel) :
    TreeSearch Q M n (fun i => M.dist (rotatePoint t.rotation x) (t.pts i)) x maxLeaves fuel V Inv (fun t s vs =>
      ((ranges t.data.root).length ≤ maxLeaves → ∀ i < n, i ∈ vs ∨
        (1 - u) ^ d * (V.max (visitAll V (fun i => M.dist (rotatePoint t.rotation x) (t.pts i)) vs s)).1 ≤
          (1 + u) ^ (2 * Spec.height t.data.root) * (M.dist (rotatePoint t.rotation x) (t.pts i)).1) ∧
      (0 < maxLeaves → 0 ≤ V.max s → vs ≠ [])) t := by
  intro s hI
  obtain ⟨vs, h1, h2, h3, h4, h5⟩ := prioritySearch_low (Q := Q) (maxLeaves := maxLeaves) (fuel := fuel)
    (fun _ _ => rfl) hV
    (QueueNear M (rotatePoint t.rotation x) t.pts t.data.indices u (Spec.height t.data.root))
    (fun D i => D.1 ≤ (1 + u) ^ (2 * Spec.height t.data.root) * axisSum M (rotatePoint t.rotation x) t.pts i)
    (fun _ _ h => h.low hM _ hu0) (fun _ _ _ _ h => h.branch hM _ hu hu0 h0)
    ⟨0, 0, t.data.indices, box, [], [], by omega, hB, rfl, by simp, hs.nonempty, fun i _ => by
      have : (0 : K) ≤ ∑ j, (roundedGap M (rotatePoint t.rotation x) box j).1 :=
        Finset.sum_nonneg fun j _ => roundedGap_nonneg hM _ _ _
      simpa [R.val_zero] using this⟩
    hs.elems hs.nonempty hs.le hs.perm hf s hI
  refine ⟨vs, h1, h2, h3, fun hl i hi => ?_, h5⟩
  rcases h4 hl i hi with h | ⟨D', h, h'⟩
  · exact Or.inl h
  · right
    have hd : (1 - u) ^ d * axisSum M (rotatePoint t.rotation x) t.pts i ≤
        (M.dist (rotatePoint t.rotation x) (t.pts i)).1 := by
      rw [hM.dist_eq]
      exact loopSum_ge hu hu0 hu1 _ fun j => hM.nonneg _
    calc _ ≤ (1 - u) ^ d * ((1 + u) ^ (2 * Spec.height t.data.root) *
          axisSum M (rotatePoint t.rotation x) t.pts i) :=
          mul_le_mul_of_nonneg_left (le_trans h' h) (pow_nonneg (by linarith) _)
      _ = (1 + u) ^ (2 * Spec.height t.data.root) *
          ((1 - u) ^ d * axisSum M (rotatePoint t.rotation x) t.pts i) := by ring
      _ ≤ _ := mul_le_mul_of_nonneg_left hd (pow_nonneg (by linarith) _)

omit hM in
/-- The searches on the trees one after the other, each with its own distances `D`. -/
theorem Forest.searchNn_all {Q : Nat → StdQueue R.F (Tree (Branch2 R.F d))} {n : Nat} {x : Pt R.F d}
    {maxLeaves fuel : Nat} {F : Forest R.F d} (hm : F.metric = M) {D : RotTree R.F d → Nat → R.F}
    {lo : K} {up : RotTree R.F d → K} (hlo0 : 0 ≤ lo) (hlo : lo ≤ 1) (hhi : ∀ t, 1 ≤ up t)
    (hD : ∀ t i, 0 ≤ D t i)
    (h : ∀ t ∈ F.trees, ∀ j, TreeSearch (Q j) M n (D t) x maxLeaves fuel nnVisitor (fun _ => True) (fun t s vs =>
      ((ranges t.data.root).length ≤ maxLeaves → ∀ i < n, i ∈ vs ∨
        lo * (nnVisitor.max (visitAll nnVisitor (D t) vs s)).1 ≤ up t * (D t i).1) ∧
      (0 < maxLeaves → 0 ≤ nnVisitor.max s → vs ≠ [])) t) (s : Neighbor R.F) (hs : 0 ≤ s.distance) :
    ∃ r, ∃ vss : List (List Nat), F.searchNearest Q fuel x maxLeaves nnVisitor s = .ok r ∧
      (r = s ∨ ∃ t ∈ F.trees, ∃ i < n, r = ⟨i, D t i⟩) ∧ 0 ≤ r.distance ∧ r.distance ≤ s.distance ∧
      List.Forall₂ (fun t vs => LeafVisits maxLeaves (ranges t.data.root) t.data.indices vs ∧
        (0 < maxLeaves → vs ≠ []) ∧ (∀ i ∈ vs, i < n) ∧ ∀ i ∈ vs, r.distance ≤ D t i) F.trees vss ∧
      ∀ t ∈ F.trees, (ranges t.data.root).length ≤ maxLeaves → ∀ i < n,
        lo * r.distance.1 ≤ up t * (D t i).1 := by
  unfold Forest.searchNearest
  rw [hm]
  dsimp only
  generalize F.trees = ts at h ⊢
  rw [show ts.zipIdx = ts.zipIdx (id 0) from rfl]
  generalize id 0 = j₀
  induction ts generalizing s j₀ with
  | nil => exact ⟨s, [], rfl, Or.inl rfl, hs, le_rfl, .nil, by simp⟩
  | cons t ts ih =>
    obtain ⟨vs, h1, h2, h3, h4, h5⟩ := h t (by simp) j₀ s trivial
    set s' := visitAll nnVisitor (D t) vs s with hs'
    have key : (s' = s ∨ ∃ i < n, s' = ⟨i, D t i⟩) ∧ 0 ≤ s'.distance ∧ s'.distance ≤ s.distance ∧
        ∀ i ∈ vs, s'.distance ≤ D t i := by
      rcases nn_visitAll (D t) vs s with ⟨e, hle⟩ | ⟨i, hi, e, hlt, hle⟩
      · rw [← hs'] at e
        rw [e]
        exact ⟨Or.inl rfl, hs, le_rfl, hle⟩
      · rw [← hs'] at e
        rw [e]
        exact ⟨Or.inr ⟨i, h3 i hi, rfl⟩, hD t i, hlt.le, hle⟩
    obtain ⟨k1, k2, k3, k4⟩ := key
    obtain ⟨r, vss, g1, g2, g3, g4, g5, g6⟩ := ih s' k2 (fun t ht => h t (by simp [ht])) (j₀ + 1)
    refine ⟨r, vs :: vss, ?_, ?_, g3, g4.trans k3, .cons ⟨h2, fun hp => h5 hp hs, h3, fun i hi => g4.trans (k4 i hi)⟩ g5,
      ?_⟩
    · rw [List.zipIdx_cons, Outcome.foldl, h1]
      simp only [Outcome.bind]
      exact g1
    · rcases g2 with rfl | ⟨t', ht', i, hi, e⟩
      · rcases k1 with e | ⟨i, hi, e⟩
        · exact Or.inl e
        · exact Or.inr ⟨t, by simp, i, hi, e⟩
      · exact Or.inr ⟨t', by simp [ht'], i, hi, e⟩
    · intro t' ht' hb i hi
      rcases List.mem_cons.1 ht' with rfl | ht'
      · have h6 : lo * r.distance.1 ≤ lo * s'.distance.1 := mul_le_mul_of_nonneg_left g4 hlo0
        rcases h4 hb i hi with h7 | h7
        · have h8 : s'.distance.1 ≤ (D t' i).1 := k4 i h7
          have h9 : lo * s'.distance.1 ≤ s'.distance.1 := mul_le_of_le_one_left k2 hlo
          have h10 : (D t' i).1 ≤ up t' * (D t' i).1 := le_mul_of_one_le_left (hD t' i) (hhi t')
          linarith
        · exact h6.trans h7
      · exact g6 t' ht' hb i hi

end Priority

end Pico
