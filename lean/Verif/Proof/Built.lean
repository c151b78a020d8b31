import Verif.Proof.Build

/-! # The invariant of finished trees that the searches rely on -/

set_option linter.unusedSectionVars false

namespace Pico

section
variable {α : Type} [LinearOrder α] {d : Nat}

/-- `x` is representable: between `numeric_limits::lowest()` and `numeric_limits::max()`. -/
def InRange (N : Num α) (x : α) : Prop := N.low ≤ x ∧ x ≤ N.big

/-- A tree `t` over the index range `seg` starting at position `o`, with node box `box`: every node
box contains the points of the node, and along the split axis the box of the left child ends before
the box of the right child starts. -/
inductive Built {β : Type} (pts : Nat → Pt α d) (setBranch : Box α d → Box α d → Fin d → β) :
    Nat → Tree β → List Nat → Box α d → Prop where
  | leaf {o : Nat} {seg : List Nat} {box : Box α d} (h : ∀ i ∈ seg, box.Mem (pts i)) :
      Built pts setBranch o (.leaf o (o + seg.length)) seg box
  | branch {o : Nat} {l r : Tree β} {segL segR : List Nat} {boxL boxR : Box α d} {dim : Fin d}
      (hl : Built pts setBranch o l segL boxL) (hr : Built pts setBranch (o + segL.length) r segR boxR)
      (hlr : boxL.max dim ≤ boxR.min dim) :
      Built pts setBranch o (.branch (setBranch boxL boxR dim) l r) (segL ++ segR)
        (boxL.fitBox boxR)

theorem Built.mem {β : Type} {pts : Nat → Pt α d} {sb : Box α d → Box α d → Fin d → β} {o : Nat}
    {t : Tree β} {seg : List Nat} {box : Box α d} (h : Built pts sb o t seg box) :
    ∀ i ∈ seg, box.Mem (pts i) := by
  induction h with
  | leaf h => exact h
  | branch _ _ _ ih1 ih2 =>
    intro i hi
    rcases List.mem_append.1 hi with hi | hi
    · exact Box.mem_fitBox_left (ih1 i hi)
    · exact Box.mem_fitBox_right (ih2 i hi)

variable [Add α] [Sub α] {β : Type}

/-- The midpoint of a non-inverted, representable interval, as computed by the midpoint rule, lies
in the interval.  True in exact arithmetic and for faithfully rounded arithmetic. -/
def MidOk (N : Num α) : Prop :=
  ∀ a b, a ≤ b → InRange N a → InRange N b →
    a ≤ N.mulHalf (b - a) + a ∧ N.mulHalf (b - a) + a ≤ b

/-- A non-inverted, representable box. -/
def CellOk (N : Num α) (b : Box α d) : Prop :=
  ∀ j, b.min j ≤ b.max j ∧ InRange N (b.min j) ∧ InRange N (b.max j)

section MaxSide

theorem maxSide_foldl (b : Box α d) (l : List (Fin d)) (st : Option (Fin d) × α) :
    (l.foldl (Box.maxSideStep b) st = st ∧ ∀ i ∈ l, b.max i - b.min i ≤ st.2) ∨
    ∃ l1 i l2, l = l1 ++ i :: l2 ∧ l.foldl (Box.maxSideStep b) st = (some i, b.max i - b.min i) ∧
      st.2 < b.max i - b.min i ∧
      (∀ k ∈ l1, b.max k - b.min k < b.max i - b.min i) ∧
      (∀ k ∈ l2, b.max k - b.min k ≤ b.max i - b.min i) := by
  induction l generalizing st with
  | nil => left; simp
  | cons a l ih =>
    rw [List.foldl_cons]
    by_cases h : b.max a - b.min a > st.2
    · have hs : Box.maxSideStep b st a = (some a, b.max a - b.min a) := by
        simp [Box.maxSideStep, h]
      rw [hs]
      right
      rcases ih (some a, b.max a - b.min a) with ⟨h1, h2⟩ | ⟨l1, i, l2, rfl, h1, h2, h3, h4⟩
      · exact ⟨[], a, l, rfl, h1, h, by simp, h2⟩
      · refine ⟨a :: l1, i, l2, rfl, h1, lt_trans h h2, ?_, h4⟩
        intro k hk
        rcases List.mem_cons.1 hk with rfl | hk
        · exact h2
        · exact h3 k hk
    · have hs : Box.maxSideStep b st a = st := by simp [Box.maxSideStep, h]
      rw [hs]
      rcases ih st with ⟨h1, h2⟩ | ⟨l1, i, l2, rfl, h1, h2, h3, h4⟩
      · left
        refine ⟨h1, ?_⟩
        intro i hi
        rcases List.mem_cons.1 hi with rfl | hi
        · exact not_lt.1 h
        · exact h2 i hi
      · right
        refine ⟨a :: l1, i, l2, rfl, h1, h2, ?_, h4⟩
        intro k hk
        rcases List.mem_cons.1 hk with rfl | hk
        · exact lt_of_le_of_lt (not_lt.1 h) h2
        · exact h3 k hk

/-- `max_side` returns the first of the longest sides. -/
theorem maxSide_some {N : Num α} {b : Box α d} {dim : Fin d} {delta : α}
    (h : b.maxSide N = (some dim, delta)) :
    delta = b.max dim - b.min dim ∧ N.low < delta ∧
      (∀ k < dim, b.max k - b.min k < delta) ∧ ∀ k, b.max k - b.min k ≤ delta := by
  unfold Box.maxSide at h
  rcases maxSide_foldl b (List.finRange d) (none, N.low) with ⟨h1, _⟩ | ⟨l1, i, l2, hl, h1, h2, h3, h4⟩
  · rw [h1] at h; simp at h
  · rw [h1] at h
    simp only [Prod.mk.injEq, Option.some.injEq] at h
    obtain ⟨rfl, rfl⟩ := h
    have hsort : (List.finRange d).Pairwise (· < ·) := List.pairwise_lt_finRange d
    rw [hl, List.pairwise_append, List.pairwise_cons] at hsort
    have hall : ∀ k : Fin d, k ∈ l1 ∨ k = i ∨ k ∈ l2 := by
      intro k
      have := List.mem_finRange k
      rw [hl, List.mem_append, List.mem_cons] at this
      exact this
    refine ⟨rfl, h2, ?_, ?_⟩
    · intro k hk
      rcases hall k with hk1 | rfl | hk2
      · exact h3 k hk1
      · exact absurd hk (lt_irrefl _)
      · exact absurd (hsort.2.1.1 k hk2) (not_lt.2 hk.le)
    · intro k
      rcases hall k with hk1 | rfl | hk2
      · exact (h3 k hk1).le
      · exact le_rfl
      · exact h4 k hk2

theorem maxSide_none {N : Num α} {b : Box α d} (h : (b.maxSide N).1 = none) :
    ∀ k, b.max k - b.min k ≤ N.low := by
  unfold Box.maxSide at h
  rcases maxSide_foldl b (List.finRange d) (none, N.low) with ⟨_, h2⟩ | ⟨l1, i, l2, hl, h1, h2, h3, h4⟩
  · intro k; exact h2 k (List.mem_finRange k)
  · rw [h1] at h; simp at h

end MaxSide

variable {C : BuildCfg α d β}

/-- The midpoint rule keeps cells valid. -/
theorem cellOk_split (hm : MidOk C.N) (hr : C.rule = .midpoint) {seg : List Nat} {box : Box α d}
    {sp : Split α d} (hs : splitter C seg box = .ok sp) (hb : CellOk C.N box) :
    box.min sp.dim ≤ sp.val ∧ sp.val ≤ box.max sp.dim ∧
    CellOk C.N (box.setMax sp.dim sp.val) ∧ CellOk C.N (box.setMin sp.dim sp.val) := by
  obtain ⟨_, ⟨delta, hd, hv, _⟩, _⟩ := splitter_ok hs
  have hdel := (maxSide_some hd).1
  have hv := hv hr
  obtain ⟨hle, hmin, hmax⟩ := hb sp.dim
  have h12 := hm _ _ hle hmin hmax
  rw [← hdel, ← hv] at h12
  have hval : InRange C.N sp.val := ⟨hmin.1.trans h12.1, h12.2.trans hmax.2⟩
  refine ⟨h12.1, h12.2, ?_, ?_⟩
  · intro j
    by_cases hj : j = sp.dim
    · subst hj; simp [h12.1, hmin, hval]
    · rw [Box.setMax_max_ne _ _ hj]; exact hb j
  · intro j
    by_cases hj : j = sp.dim
    · subst hj; simp [h12.2, hmax, hval]
    · rw [Box.setMin_min_ne _ _ hj]; exact hb j

theorem splitter_mem {seg : List Nat} {box : Box α d} {sp : Split α d}
    (hs : splitter C seg box = .ok sp) :
    (∀ i ∈ sp.seg.take sp.pos, i ∈ seg) ∧ (∀ i ∈ sp.seg.drop sp.pos, i ∈ seg) :=
  ⟨fun _ hi => (splitter_ok hs).1.perm.subset (List.mem_of_mem_take hi),
   fun _ hi => (splitter_ok hs).1.perm.subset (List.mem_of_mem_drop hi)⟩

theorem leafBox_max_le {seg : List Nat} {box : Box α d} {j : Fin d} {v : α} (hv : C.N.low ≤ v)
    (hp : ∀ i ∈ seg, C.pts i j ≤ v) (hb : C.rule = .midpoint → box.max j ≤ v) :
    (leafBox C seg box).max j ≤ v := by
  have hc : (computeBoundingBox C.N C.pts seg).max j ≤ v :=
    (foldl_fitPt_max C.pts seg _ j v).2 ⟨hv, hp⟩
  unfold leafBox
  split
  · rename_i hr
    split_ifs
    · exact hc
    · exact hb hr
  · exact hc

theorem leafBox_le_min {seg : List Nat} {box : Box α d} {j : Fin d} {v : α} (hv : v ≤ C.N.big)
    (hp : ∀ i ∈ seg, v ≤ C.pts i j) (hb : C.rule = .midpoint → v ≤ box.min j) :
    v ≤ (leafBox C seg box).min j := by
  have hc : v ≤ (computeBoundingBox C.N C.pts seg).min j :=
    (foldl_fitPt_min C.pts seg _ j v).2 ⟨hv, hp⟩
  unfold leafBox
  split
  · rename_i hr
    split_ifs
    · exact hc
    · exact hb hr
  · exact hc

theorem leafBox_mem {seg : List Nat} {box : Box α d} :
    ∀ i ∈ seg, (leafBox C seg box).Mem (C.pts i) := by
  intro i hi
  unfold leafBox
  split
  · have : seg.length > 0 := List.length_pos_of_mem hi
    rw [if_pos this]
    exact computeBoundingBox_mem _ _ _ i hi
  · exact computeBoundingBox_mem _ _ _ i hi

/-- Upper bound on the box `create_node` leaves behind. -/
theorem Created.max_le (hm : C.rule = .midpoint → MidOk C.N) {depth : Int} {o : Nat}
    {seg : List Nat} {box : Box α d} {t : Tree β} {seg' : List Nat} {box' : Box α d}
    (h : Created C depth o seg box t seg' box') (j : Fin d) (v : α) (hv : C.N.low ≤ v)
    (hp : ∀ i ∈ seg, C.pts i j ≤ v)
    (hb : C.rule = .midpoint → CellOk C.N box ∧ box.max j ≤ v) : box'.max j ≤ v := by
  induction h with
  | leaf hl => exact leafBox_max_le hv hp fun hr => (hb hr).2
  | @branch depth o seg box sp l r segL segR boxL boxR hl hs _ _ ih1 ih2 =>
    rw [Box.fitBox_max]
    have hmem := splitter_mem hs
    refine _root_.max_le (ih1 (fun i hi => hp i (hmem.1 i hi)) ?_) (ih2 (fun i hi => hp i (hmem.2 i hi)) ?_)
    · intro hr
      have hc := cellOk_split (hm hr) hr hs (hb hr).1
      refine ⟨hc.2.2.1, ?_⟩
      by_cases hj : j = sp.dim
      · subst hj; simpa using hc.2.1.trans (hb hr).2
      · rw [Box.setMax_max_ne _ _ hj]; exact (hb hr).2
    · intro hr
      have hc := cellOk_split (hm hr) hr hs (hb hr).1
      exact ⟨hc.2.2.2, (hb hr).2⟩

/-- Lower bound on the box `create_node` leaves behind. -/
theorem Created.le_min (hm : C.rule = .midpoint → MidOk C.N) {depth : Int} {o : Nat}
    {seg : List Nat} {box : Box α d} {t : Tree β} {seg' : List Nat} {box' : Box α d}
    (h : Created C depth o seg box t seg' box') (j : Fin d) (v : α) (hv : v ≤ C.N.big)
    (hp : ∀ i ∈ seg, v ≤ C.pts i j)
    (hb : C.rule = .midpoint → CellOk C.N box ∧ v ≤ box.min j) : v ≤ box'.min j := by
  induction h with
  | leaf hl => exact leafBox_le_min hv hp fun hr => (hb hr).2
  | @branch depth o seg box sp l r segL segR boxL boxR hl hs _ _ ih1 ih2 =>
    rw [Box.fitBox_min]
    have hmem := splitter_mem hs
    refine _root_.le_min (ih1 (fun i hi => hp i (hmem.1 i hi)) ?_) (ih2 (fun i hi => hp i (hmem.2 i hi)) ?_)
    · intro hr
      have hc := cellOk_split (hm hr) hr hs (hb hr).1
      exact ⟨hc.2.2.1, (hb hr).2⟩
    · intro hr
      have hc := cellOk_split (hm hr) hr hs (hb hr).1
      refine ⟨hc.2.2.2, ?_⟩
      by_cases hj : j = sp.dim
      · subst hj; simpa using (hb hr).2.trans hc.1
      · rw [Box.setMin_min_ne _ _ hj]; exact (hb hr).2

/-- A finished `create_node` call establishes the invariant. -/
theorem Created.built (hN : C.N.low ≤ C.N.big) (hm : C.rule = .midpoint → MidOk C.N) {depth : Int}
    {o : Nat} {seg : List Nat} {box : Box α d} {t : Tree β} {seg' : List Nat} {box' : Box α d}
    (h : Created C depth o seg box t seg' box')
    (hp : ∀ i ∈ seg, ∀ j, InRange C.N (C.pts i j))
    (hb : C.rule = .midpoint → CellOk C.N box) :
    Built C.pts C.setBranch o t seg' box' := by
  induction h with
  | leaf hl => exact .leaf leafBox_mem
  | @branch depth o seg box sp l r segL segR boxL boxR hl hs hL hR ih1 ih2 =>
    have hmem := splitter_mem hs
    have hso := (splitter_ok hs).1
    have b1 := ih1 (fun i hi => hp i (hmem.1 i hi)) (fun hr => (cellOk_split (hm hr) hr hs (hb hr)).2.2.1)
    have b2 := ih2 (fun i hi => hp i (hmem.2 i hi)) (fun hr => (cellOk_split (hm hr) hr hs (hb hr)).2.2.2)
    have hlen : segL.length = sp.pos := by rw [hL.perm.length_eq]; exact splitter_take_length hs
    rw [← hlen] at b2
    refine .branch b1 b2 ?_
    by_cases hr : C.rule = .midpoint
    · have hc := cellOk_split (hm hr) hr hs (hb hr)
      have hlo : C.N.low ≤ sp.val := (hb hr sp.dim).2.1.1.trans hc.1
      have hhi : sp.val ≤ C.N.big := hc.2.1.trans (hb hr sp.dim).2.2.2
      exact (hL.max_le hm sp.dim sp.val hlo hso.left_le fun _ => ⟨hc.2.2.1, by simp⟩).trans
        (hR.le_min hm sp.dim sp.val hhi hso.right_ge fun _ => ⟨hc.2.2.2, by simp⟩)
    · refine hL.max_le hm sp.dim _ ?_ ?_ (fun h => absurd h hr)
      · exact hR.le_min hm sp.dim _ hN (fun i hi => (hp i (hmem.2 i hi) _).1) (fun h => absurd h hr)
      · intro i hi
        refine hR.le_min hm sp.dim _ (hp i (hmem.1 i hi) _).2 ?_ (fun h => absurd h hr)
        intro k hk
        exact (hso.left_le i hi).trans (hso.right_ge k hk)

/-- Representability of the corners of given start bounds. -/
def Bounds.InRange (N : Num α) : Bounds α d → Prop
  | .fromSpace => True
  | .given mn mx => ∀ j, Pico.InRange N (mn j) ∧ Pico.InRange N (mx j)

theorem boxFromBounds_cellOk {N : Num α} {pts : Nat → Pt α d} {n : Nat}
    {bounds : Bounds α d} (hn : 0 < n) (hp : ∀ i < n, ∀ j, InRange N (pts i j))
    (hb : bounds.InRange N) : CellOk N (boxFromBounds N pts n bounds) := by
  intro j
  cases bounds with
  | fromSpace =>
    have h0 := boxFromBounds_fromSpace_mem N pts n 0 hn j
    have hlo : N.low ≤ N.big := (hp 0 hn j).1.trans (hp 0 hn j).2
    have hmin : N.low ≤ (boxFromBounds N pts n .fromSpace).min j :=
      (foldl_fitPt_min pts _ _ j _).2 ⟨hlo, fun i hi => (hp i (List.mem_range.1 hi) j).1⟩
    have hmax : (boxFromBounds N pts n .fromSpace).max j ≤ N.big :=
      (foldl_fitPt_max pts _ _ j _).2 ⟨hlo, fun i hi => (hp i (List.mem_range.1 hi) j).2⟩
    exact ⟨h0.1.trans h0.2, ⟨hmin, h0.1.trans (hp 0 hn j).2⟩, ⟨(hp 0 hn j).1.trans h0.2, hmax⟩⟩
  | given mn mx =>
    obtain ⟨h1, h2⟩ := hb j
    rw [boxFromBounds_given_min, boxFromBounds_given_max]
    have e1 : min N.big (mn j) = mn j := min_eq_right h1.2
    have e2 : max N.low (mn j) = mn j := max_eq_right h1.1
    rw [e1, e2]
    exact ⟨min_le_max, ⟨le_min h1.1 h2.1, (min_le_left _ _).trans h1.2⟩,
      ⟨h1.1.trans (le_max_left _ _), max_le h1.2 h2.2⟩⟩

/-- The call tree of a finished construction. -/
theorem buildTree_created {n : Nat} {bounds : Bounds α d} {fuel : Nat} {T : TreeData α d β}
    (h : buildTree C n bounds fuel = .ok T) :
    T.rootBox = boxFromBounds C.N C.pts n bounds ∧
      ∃ box, Created C 0 0 (List.range n) (boxFromBounds C.N C.pts n bounds) T.root T.indices box := by
  unfold buildTree at h
  dsimp only at h
  cases hc : createNode C fuel 0 0 (List.range n) (boxFromBounds C.N C.pts n bounds) with
  | ub => simp [hc, Outcome.bind] at h
  | oof => simp [hc, Outcome.bind] at h
  | ok res =>
    simp only [hc, Outcome.bind, Outcome.ok.injEq] at h
    subst h
    exact ⟨rfl, res.2.2, created_of_createNode hc⟩

theorem buildTree_perm {n : Nat} {bounds : Bounds α d} {fuel : Nat} {T : TreeData α d β}
    (h : buildTree C n bounds fuel = .ok T) : T.indices.Perm (List.range n) := by
  obtain ⟨_, _, hc⟩ := buildTree_created h
  exact hc.perm

/-- Every finished construction establishes the invariant and permutes the indices. -/
theorem buildTree_built {n : Nat} {bounds : Bounds α d} {fuel : Nat} {T : TreeData α d β}
    (hm : C.rule = .midpoint → MidOk C.N) (hN : C.N.low ≤ C.N.big)
    (hp : ∀ i < n, ∀ j, InRange C.N (C.pts i j)) (hb : bounds.InRange C.N) (hn : 0 < n)
    (h : buildTree C n bounds fuel = .ok T) :
    T.indices.Perm (List.range n) ∧ T.rootBox = boxFromBounds C.N C.pts n bounds ∧
      ∃ box, Built C.pts C.setBranch 0 T.root T.indices box := by
  obtain ⟨h1, box, hcr⟩ := buildTree_created h
  exact ⟨hcr.perm, h1, box, hcr.built hN hm (fun i hi => hp i (List.mem_range.1 hi))
      (fun _ => boxFromBounds_cellOk hn hp hb)⟩

end

end Pico
