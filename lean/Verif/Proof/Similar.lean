import Verif.Proof.Embed
import Verif.Proof.Looked
import Verif.Proof.Relate
import Mathlib.Tactic.Linarith
import Mathlib.Tactic.Ring

/-!
# Moving and scaling a point set

All coordinates are multiplied by the same positive factor `s` and a vector `t` is added.  The construction and the
searches do the same as before, on moved boxes.
-/

set_option linter.unusedSectionVars false

namespace Pico

/-- A point multiplied by `s` and moved by `t`. -/
def Pt.similar {α : Type} [Mul α] [Add α] {d : Nat} (s : α) (t : Pt α d) (x : Pt α d) : Pt α d :=
  fun j => s * x j + t j

/-- A box multiplied by `s` and moved by `t`. -/
def Box.similar {α : Type} [Mul α] [Add α] {d : Nat} (s : α) (t : Pt α d) (b : Box α d) : Box α d :=
  ⟨Pt.similar s t b.min, Pt.similar s t b.max⟩

def Bounds.similar {α : Type} [Mul α] [Add α] {d : Nat} (s : α) (t : Pt α d) : Bounds α d → Bounds α d
  | .fromSpace => .fromSpace
  | .given mn mx => .given (Pt.similar s t mn) (Pt.similar s t mx)

def Branch1.similar {α : Type} [Mul α] [Add α] {d : Nat} (s : α) (t : Pt α d) (b : Branch1 α d) : Branch1 α d :=
  ⟨b.splitDim, s * b.leftMax + t b.splitDim, s * b.rightMin + t b.splitDim⟩

def Branch2.similar {α : Type} [Mul α] [Add α] {d : Nat} (s : α) (t : Pt α d) (b : Branch2 α d) : Branch2 α d :=
  ⟨b.splitDim, s * b.leftMin + t b.splitDim, s * b.leftMax + t b.splitDim, s * b.rightMin + t b.splitDim,
    s * b.rightMax + t b.splitDim⟩

def Split.similar {α : Type} [Mul α] [Add α] {d : Nat} (s : α) (t : Pt α d) (sp : Split α d) : Split α d :=
  ⟨sp.seg, sp.pos, sp.dim, s * sp.val + t sp.dim⟩

section
variable {α : Type} [CommRing α] [LinearOrder α] [IsStrictOrderedRing α] {d : Nat} {β : Type} {s : α} (hs : 0 < s)
  (t : Pt α d)

include hs

theorem similar_lt (j : Fin d) (x y : α) : s * x + t j < s * y + t j ↔ x < y := by
  rw [add_lt_add_iff_right, mul_lt_mul_iff_right₀ hs]

theorem similar_le (j : Fin d) (x y : α) : s * x + t j ≤ s * y + t j ↔ x ≤ y := by
  rw [add_le_add_iff_right, mul_le_mul_iff_right₀ hs]

theorem Box.similar_fitBox (b c : Box α d) :
    (b.similar s t).fitBox (c.similar s t) = (b.fitBox c).similar s t := by
  unfold Box.fitBox Box.similar
  congr 1
  · funext j
    simp only [Pt.similar, similar_lt hs t]
    split_ifs <;> rfl
  · funext j
    simp only [Pt.similar, gt_iff_lt, similar_lt hs t]
    split_ifs <;> rfl

theorem Box.similar_fitPt (b : Box α d) (x : Pt α d) :
    (b.similar s t).fitPt (Pt.similar s t x) = (b.fitPt x).similar s t := by
  unfold Box.fitPt Box.similar
  congr 1
  · funext j
    simp only [Pt.similar, similar_lt hs t]
    split_ifs <;> rfl
  · funext j
    simp only [Pt.similar, gt_iff_lt, similar_lt hs t]
    split_ifs <;> rfl

theorem foldl_fitPt_similar (pts : Nat → Pt α d) (l : List Nat) (b : Box α d) :
    l.foldl (fun b i => b.fitPt (Pt.similar s t (pts i))) (b.similar s t) =
      (l.foldl (fun b i => b.fitPt (pts i)) b).similar s t := by
  induction l generalizing b with
  | nil => rfl
  | cons a l ih =>
    simp only [List.foldl_cons, Box.similar_fitPt hs t, ih]

omit hs in
theorem inverseMax_fitPt {N : Num α} {x : Pt α d} (hx : ∀ j, InRange N (x j)) :
    (Box.inverseMax N : Box α d).fitPt x = ⟨x, x⟩ := by
  unfold Box.fitPt Box.inverseMax
  congr 1
  · funext j
    dsimp only
    split_ifs with h
    · rfl
    · exact le_antisymm (not_lt.1 h) (hx j).2
  · funext j
    dsimp only
    split_ifs with h
    · rfl
    · exact le_antisymm (hx j).1 (not_lt.1 h)

theorem computeBoundingBox_similar {N : Num α} (pts : Nat → Pt α d) {l : List Nat} (hl : l ≠ [])
    (hp : ∀ i ∈ l, ∀ j, InRange N (pts i j)) (hp' : ∀ i ∈ l, ∀ j, InRange N (Pt.similar s t (pts i) j)) :
    computeBoundingBox N (fun i => Pt.similar s t (pts i)) l = (computeBoundingBox N pts l).similar s t := by
  unfold computeBoundingBox
  cases l with
  | nil => exact absurd rfl hl
  | cons a l =>
    rw [List.foldl_cons, List.foldl_cons, inverseMax_fitPt (hp a (by simp)), inverseMax_fitPt (hp' a (by simp)),
      ← foldl_fitPt_similar hs t]
    rfl

omit hs in
theorem Box.similar_setMax (b : Box α d) (dim : Fin d) (v : α) :
    (b.similar s t).setMax dim (s * v + t dim) = (b.setMax dim v).similar s t := by
  unfold Box.setMax Box.similar Pt.similar
  congr 1
  funext j
  by_cases hj : j = dim
  · subst hj; simp
  · simp [Function.update_of_ne hj]

omit hs in
theorem Box.similar_setMin (b : Box α d) (dim : Fin d) (v : α) :
    (b.similar s t).setMin dim (s * v + t dim) = (b.setMin dim v).similar s t := by
  unfold Box.setMin Box.similar Pt.similar
  congr 1
  funext j
  by_cases hj : j = dim
  · subst hj; simp
  · simp [Function.update_of_ne hj]

theorem maxSide_similar {N : Num α} (hlow : N.low < 0) {b : Box α d} (hb : ∀ j, b.min j ≤ b.max j) :
    (∃ i, b.maxSide N = (some i, b.max i - b.min i) ∧
      (b.similar s t).maxSide N = (some i, s * (b.max i - b.min i))) ∨
    (b.maxSide N = (none, N.low) ∧ (b.similar s t).maxSide N = (none, N.low)) := by
  unfold Box.maxSide
  have hside : ∀ a, (b.similar s t).max a - (b.similar s t).min a = s * (b.max a - b.min a) := by
    intro a
    simp only [Box.similar, Pt.similar]
    ring
  have key : ∀ (l : List (Fin d)) (st st' : Option (Fin d) × α),
      ((∃ i, st = (some i, b.max i - b.min i) ∧ st' = (some i, s * (b.max i - b.min i))) ∨
        (st = (none, N.low) ∧ st' = (none, N.low))) →
      ((∃ i, l.foldl (Box.maxSideStep b) st = (some i, b.max i - b.min i) ∧
        l.foldl (Box.maxSideStep (b.similar s t)) st' = (some i, s * (b.max i - b.min i))) ∨
      (l.foldl (Box.maxSideStep b) st = (none, N.low) ∧
        l.foldl (Box.maxSideStep (b.similar s t)) st' = (none, N.low))) := by
    intro l
    induction l with
    | nil => exact fun _ _ h => h
    | cons a l ih =>
      intro st st' h
      simp only [List.foldl_cons]
      apply ih
      rcases h with ⟨i, rfl, rfl⟩ | ⟨rfl, rfl⟩
      · left
        have hi := mul_lt_mul_iff_right₀ (b := b.max i - b.min i) (c := b.max a - b.min a) hs
        by_cases hc : b.max i - b.min i < b.max a - b.min a
        · refine ⟨a, ?_, ?_⟩
          · simp [Box.maxSideStep, hc]
          · simp only [Box.maxSideStep, hside, gt_iff_lt, hi, if_pos hc]
        · refine ⟨i, ?_, ?_⟩
          · simp only [Box.maxSideStep, gt_iff_lt, if_neg hc]
          · simp only [Box.maxSideStep, hside, gt_iff_lt, hi, if_neg hc]
      · left
        have h0 : 0 ≤ b.max a - b.min a := sub_nonneg.2 (hb a)
        refine ⟨a, ?_, ?_⟩
        · simp only [Box.maxSideStep, gt_iff_lt, if_pos (hlow.trans_le h0)]
        · simp only [Box.maxSideStep, hside, gt_iff_lt, if_pos (hlow.trans_le (mul_nonneg hs.le h0))]
  exact key _ _ _ (Or.inr ⟨rfl, rfl⟩)

theorem coordLt_similar (pts : Nat → Pt α d) (dim : Fin d) :
    coordLt (fun i => Pt.similar s t (pts i)) dim = coordLt pts dim := by
  funext a b
  unfold coordLt Pt.similar
  simp only [similar_lt hs t]

theorem coordBelow_similar (pts : Nat → Pt α d) (dim : Fin d) (v : α) :
    coordBelow (fun i => Pt.similar s t (pts i)) dim (s * v + t dim) = coordBelow pts dim v := by
  funext a
  unfold coordBelow Pt.similar
  simp only [similar_lt hs t]

theorem nthSplit_similar (S : Std) (pts : Nat → Pt α d) (dim : Fin d) (k : Nat) (seg : List Nat) :
    nthSplit S (fun i => Pt.similar s t (pts i)) dim k seg = (nthSplit S pts dim k seg).map (Split.similar s t) := by
  unfold nthSplit
  rw [coordLt_similar hs t]
  dsimp only
  cases (S.nth (coordLt pts dim) k seg)[k]? <;> rfl

/-- The configuration of the construction for the moved points. -/
def BuildCfg.similar (s : α) (t : Pt α d) (C : BuildCfg α d β) : BuildCfg α d β :=
  { C with pts := fun i => Pt.similar s t (C.pts i) }

/-- Halving a length: the result is a part of the length, and halving does not depend on the unit of length. -/
structure HalfOk (N : Num α) (s : α) : Prop where
  mul : ∀ x, 0 ≤ x → N.mulHalf (s * x) = s * N.mulHalf x ∧ 0 ≤ N.mulHalf x ∧ N.mulHalf x ≤ x
  div : ∀ x, 0 ≤ x → N.divTwo (s * x) = s * N.divTwo x ∧ 0 ≤ N.divTwo x ∧ N.divTwo x ≤ x

theorem splitter_similar {C : BuildCfg α d β} (hlow : C.N.low < 0) (hhalf : HalfOk C.N s) (seg : List Nat) {box : Box α d} (hb : ∀ j, box.min j ≤ box.max j) :
    splitter (C.similar s t) seg (box.similar s t) = (splitter C seg box).map (Split.similar s t) := by
  unfold splitter
  simp only [BuildCfg.similar]
  have hmul : ∀ i, C.N.mulHalf (s * (box.max i - box.min i)) + (box.similar s t).min i =
      s * (C.N.mulHalf (box.max i - box.min i) + box.min i) + t i := by
    intro i
    rw [(hhalf.mul _ (sub_nonneg.2 (hb i))).1]
    simp only [Box.similar, Pt.similar]
    ring
  have hdiv : ∀ i, C.N.divTwo (s * (box.max i - box.min i)) + (box.similar s t).min i =
      s * (C.N.divTwo (box.max i - box.min i) + box.min i) + t i := by
    intro i
    rw [(hhalf.div _ (sub_nonneg.2 (hb i))).1]
    simp only [Box.similar, Pt.similar]
    ring
  cases C.rule with
  | median =>
    simp only [splitMedian]
    rcases maxSide_similar hs t hlow hb with ⟨i, h1, h2⟩ | ⟨h1, h2⟩
    · rw [h1, h2]
      exact nthSplit_similar hs t _ _ _ _ _
    · rw [h1, h2]; rfl
  | midpoint =>
    simp only [splitMidpoint]
    rcases maxSide_similar hs t hlow hb with ⟨i, h1, h2⟩ | ⟨h1, h2⟩
    · rw [h1, h2]
      simp only [hmul, coordBelow_similar hs t]
      rfl
    · rw [h1, h2]; rfl
  | sliding =>
    simp only [splitSliding_eq]
    rcases maxSide_similar hs t hlow hb with ⟨i, h1, h2⟩ | ⟨h1, h2⟩
    · rw [h1, h2]
      simp only [hdiv, coordBelow_similar hs t]
      generalize C.S.partition (coordBelow C.pts i (C.N.divTwo (box.max i - box.min i) + box.min i)) seg = r
      unfold slideAt
      split_ifs
      · cases r.2 with
        | zero => rfl
        | succ k => exact nthSplit_similar hs t _ _ _ _ _
      · exact nthSplit_similar hs t _ _ _ _ _
      · rfl
    · rw [h1, h2]; rfl

/-- The box of a cell: sorted, around its points, which are numbers of the scalar type before and after the move; and
not empty unless the midpoint rule is used. -/
structure CellFit (C : BuildCfg α d β) (s : α) (t : Pt α d) (seg : List Nat) (box : Box α d) : Prop where
  ord : ∀ j, box.min j ≤ box.max j
  mem : ∀ i ∈ seg, box.Mem (C.pts i)
  range : ∀ i ∈ seg, ∀ j, InRange C.N (C.pts i j)
  range' : ∀ i ∈ seg, ∀ j, InRange C.N (Pt.similar s t (C.pts i) j)
  ne : C.rule ≠ .midpoint → seg ≠ []

omit hs in
variable {t} in
theorem CellFit.split {C : BuildCfg α d β} (hhalf : HalfOk C.N s) {seg : List Nat} {box : Box α d} (h : CellFit C s t seg box) {sp : Split α d}
    (hsp : splitter C seg box = .ok sp) (h2 : 2 ≤ seg.length) :
    CellFit C s t (sp.seg.take sp.pos) (box.setMax sp.dim sp.val) ∧
      CellFit C s t (sp.seg.drop sp.pos) (box.setMin sp.dim sp.val) := by
  have hpos := fun hr => split_pos (C := C) hr hsp h2
  obtain ⟨h1, ⟨delta, hm, a1, a2, a3⟩, -⟩ := splitter_ok hsp
  obtain ⟨hd, -⟩ := maxSide_some hm
  have hlen := h1.perm.length_eq
  have hl : ∀ i ∈ sp.seg.take sp.pos, i ∈ seg := fun i hi => h1.perm.subset (List.mem_of_mem_take hi)
  have hr : ∀ i ∈ sp.seg.drop sp.pos, i ∈ seg := fun i hi => h1.perm.subset (List.mem_of_mem_drop hi)
  have hval : box.min sp.dim ≤ sp.val ∧ sp.val ≤ box.max sp.dim := by
    have hpt : (∃ i ∈ seg, sp.val = C.pts i sp.dim) → box.min sp.dim ≤ sp.val ∧ sp.val ≤ box.max sp.dim := by
      rintro ⟨i, hi, he⟩
      rw [he]
      exact h.mem i hi sp.dim
    have hmid : ∀ x, 0 ≤ x → x ≤ box.max sp.dim - box.min sp.dim → sp.val = x + box.min sp.dim →
        box.min sp.dim ≤ sp.val ∧ sp.val ≤ box.max sp.dim := by
      intro x h0 h1 he
      rw [he]
      constructor <;> linarith
    have h0 : 0 ≤ box.max sp.dim - box.min sp.dim := sub_nonneg.2 (h.ord sp.dim)
    cases hrule : C.rule with
    | median => exact hpt (a2 hrule)
    | midpoint => exact hmid _ (hhalf.mul _ h0).2.1 (hhalf.mul _ h0).2.2 (by rw [a1 hrule, hd])
    | sliding =>
      rcases a3 hrule with he | he
      · exact hmid _ (hhalf.div _ h0).2.1 (hhalf.div _ h0).2.2 (by rw [he, hd])
      · exact hpt he
  refine ⟨⟨?_, ?_, fun i hi => h.range i (hl i hi), fun i hi => h.range' i (hl i hi), ?_⟩,
    ⟨?_, ?_, fun i hi => h.range i (hr i hi), fun i hi => h.range' i (hr i hi), ?_⟩⟩
  · intro j
    by_cases hj : j = sp.dim
    · subst hj; simpa [Box.setMax] using hval.1
    · simpa [Box.setMax, Function.update_of_ne hj] using h.ord j
  · intro i hi j
    by_cases hj : j = sp.dim
    · subst hj
      simpa [Box.setMax] using ⟨(h.mem i (hl i hi) sp.dim).1, h1.left_le i hi⟩
    · simpa [Box.setMax, Function.update_of_ne hj] using h.mem i (hl i hi) j
  · intro hne hc
    have := hpos hne
    have hc' := congrArg List.length hc
    simp only [List.length_take, List.length_nil] at hc'
    omega
  · intro j
    by_cases hj : j = sp.dim
    · subst hj; simpa [Box.setMin] using hval.2
    · simpa [Box.setMin, Function.update_of_ne hj] using h.ord j
  · intro i hi j
    by_cases hj : j = sp.dim
    · subst hj
      simpa [Box.setMin] using ⟨h1.right_ge i hi, (h.mem i (hr i hi) sp.dim).2⟩
    · simpa [Box.setMin, Function.update_of_ne hj] using h.mem i (hr i hi) j
  · intro hne hc
    have := hpos hne
    have hc' := congrArg List.length hc
    simp only [List.length_drop, List.length_nil] at hc'
    omega

theorem leafBox_similar {C : BuildCfg α d β} {seg : List Nat} {box : Box α d} (h : CellFit C s t seg box) :
    leafBox (C.similar s t) seg (box.similar s t) = (leafBox C seg box).similar s t := by
  unfold leafBox
  simp only [BuildCfg.similar]
  cases hr : C.rule with
  | median => exact computeBoundingBox_similar hs t _ (h.ne (by simp [hr])) h.range h.range'
  | sliding => exact computeBoundingBox_similar hs t _ (h.ne (by simp [hr])) h.range h.range'
  | midpoint =>
    dsimp only
    split_ifs with hl
    · exact computeBoundingBox_similar hs t _ (List.ne_nil_of_length_pos hl) h.range h.range'
    · rfl

theorem createNode_similar {C : BuildCfg α d β} (hlow : C.N.low < 0) (hhalf : HalfOk C.N s) (hstop : StopOk C) (f : β → β)
    (hf : ∀ bL bR dim, C.setBranch (bL.similar s t) (bR.similar s t) dim = f (C.setBranch bL bR dim))
    (fuel : Nat) (depth : Int) (o : Nat) (seg : List Nat) (box : Box α d) (h : CellFit C s t seg box) :
    createNode (C.similar s t) fuel depth o seg (box.similar s t) =
      (createNode C fuel depth o seg box).map fun r => (r.1.map f, r.2.1, r.2.2.similar s t) := by
  induction fuel generalizing depth o seg box with
  | zero => rfl
  | succ fuel ih =>
    unfold createNode
    have hleaf : isLeaf (C.similar s t) depth seg.length = isLeaf C depth seg.length := rfl
    rw [hleaf]
    cases hl : isLeaf C depth seg.length with
    | true =>
      simp only [if_true, leafBox_similar hs t h]
      rfl
    | false =>
      simp only [Bool.false_eq_true, if_false]
      rw [splitter_similar hs t hlow hhalf seg h.ord]
      cases hsp : splitter C seg box with
      | ub => rfl
      | oof => rfl
      | ok sp =>
        obtain ⟨c1, c2⟩ := h.split hhalf hsp (two_le_of_not_leaf hstop hl)
        have i1 := ih (depth + 1) o _ _ c1
        have i2 := ih (depth + 1) (o + sp.pos) _ _ c2
        simp only [Outcome.map, Outcome.bind, Split.similar, Box.similar_setMax, Box.similar_setMin]
        rw [i1, i2]
        cases createNode C fuel (depth + 1) o (sp.seg.take sp.pos) (box.setMax sp.dim sp.val) with
        | ub => rfl
        | oof => rfl
        | ok rl =>
          simp only [Outcome.map]
          cases createNode C fuel (depth + 1) (o + sp.pos) (sp.seg.drop sp.pos) (box.setMin sp.dim sp.val) with
          | ub => rfl
          | oof => rfl
          | ok rr =>
            simp only
            rw [Box.similar_fitBox hs t]
            have : (C.similar s t).setBranch = C.setBranch := rfl
            rw [this, hf]
            rfl

theorem boxFromBounds_similar {N : Num α} {pts : Nat → Pt α d} {n : Nat} (hn : 0 < n) {bounds : Bounds α d}
    (hp : ∀ i < n, ∀ j, InRange N (pts i j)) (hp' : ∀ i < n, ∀ j, InRange N (Pt.similar s t (pts i) j))
    (hb : bounds.InRange N) (hb' : (bounds.similar s t).InRange N) :
    boxFromBounds N (fun i => Pt.similar s t (pts i)) n (bounds.similar s t) =
      (boxFromBounds N pts n bounds).similar s t := by
  cases bounds with
  | fromSpace =>
    exact computeBoundingBox_similar hs t pts (by simp; omega) (fun i hi => hp i (List.mem_range.1 hi))
      fun i hi => hp' i (List.mem_range.1 hi)
  | given mn mx =>
    simp only [boxFromBounds, Bounds.similar]
    rw [inverseMax_fitPt (fun j => (hb j).1), inverseMax_fitPt (fun j => (hb' j).1), ← Box.similar_fitPt hs t]
    rfl

end

section Search
variable {α : Type} [CommRing α] [LinearOrder α] [IsStrictOrderedRing α] {d : Nat} {β σ σ' : Type}

theorem Tree.elems_map {β β' : Type} (f : β → β') (indices : List Nat) (t : Tree β) :
    (t.map f).elems indices = t.elems indices := by
  induction t with
  | leaf => rfl
  | branch data l r ihl ihr => simp only [Tree.map, Tree.elems, ihl, ihr]

/-- The search of a subtree without points changes nothing. -/
theorem searchNearest_empty (splitDim : β → Fin d) (pick : β → Bool × α) (V : Visitor α σ) (dist : Nat → α)
    (indices : List Nat) (t : Tree β) (ht : t.elems indices = []) (D : α) (st : Pt α d × σ) :
    searchNearest splitDim pick V dist indices t D st = st := by
  induction t generalizing D st with
  | leaf b e =>
    rw [Tree.elems] at ht
    rw [searchNearest, ht]
    rfl
  | branch data l r ihl ihr =>
    rw [Tree.elems, List.append_eq_nil_iff] at ht
    have key : ∀ D', (let s1 := st; if V.max s1.2 ≥ D' then
        ((Function.update (Function.update s1.1 (splitDim data) (pick data).2) (splitDim data)
          (s1.1 (splitDim data)), s1.2) : Pt α d × σ) else s1) = st := by
      intro D'
      dsimp only
      split_ifs
      · rw [Function.update_idem, Function.update_eq_self]
      · rfl
    cases hb : (pick data).1 with
    | true =>
      simp only [searchNearest, hb, if_true, ihl ht.1, ihr ht.2]
      exact key _
    | false =>
      simp only [searchNearest, hb, if_false, Bool.false_eq_true, ihl ht.1, ihr ht.2]
      exact key _

/-- Two runs of the traversal, the second on mapped branch data with distances multiplied by `c`, stay related if
`max()` compares in the same way with every lower bound of a distance. -/
theorem searchNearest_similar (splitDim : β → Fin d) (pick pick' : β → Bool × α) (V : Visitor α σ)
    (W : Visitor α σ') (dist dist' : Nat → α) (indices : List Nat) (f : β → β) (c : α)
    (hdim : ∀ b, splitDim (f b) = splitDim b) (hpick : ∀ b, pick' (f b) = ((pick b).1, c * (pick b).2))
    (A : Nat → Prop) (R : σ → σ' → Prop)
    (hvisit : ∀ u w i, A i → R u w → R (V.visit u i (dist i)) (W.visit w i (dist' i)))
    (hmax : ∀ u w i D, A i → R u w → D ≤ dist i → (D ≤ V.max u ↔ c * D ≤ W.max w))
    (term : Fin d → Nat → α) (hterm : ∀ i, A i → dist i = ∑ j, term j i)
    (t : Tree β) (hA : ∀ i ∈ t.elems indices, A i) (hG : Guard splitDim pick indices term t)
    (D : α) (off : Pt α d) (hD : D = ∑ j, off j) (hoff : ∀ i ∈ t.elems indices, ∀ j, off j ≤ term j i)
    (u : σ) (w : σ') (hR : R u w) :
    ∃ u' w', R u' w' ∧ searchNearest splitDim pick V dist indices t D (off, u) = (off, u') ∧
      searchNearest splitDim pick' W dist' indices (t.map f) (c * D) (fun j => c * off j, w) =
        (fun j => c * off j, w') := by
  induction t generalizing D off u w with
  | leaf b e =>
    refine ⟨_, _, ?_, rfl, rfl⟩
    have hA' : ∀ i ∈ slice indices b e, A i := hA
    revert hA'
    generalize slice indices b e = l
    intro hA'
    unfold visitAll
    induction l generalizing u w with
    | nil => exact hR
    | cons a l ih =>
      exact ih _ _ (hvisit u w a (hA' a (by simp)) hR) fun i hi => hA' i (by simp [hi])
  | branch data l r ihl ihr =>
    have hupd : (fun j => c * Function.update off (splitDim data) (pick data).2 j) =
        Function.update (fun j => c * off j) (splitDim data) (c * (pick data).2) := by
      funext j
      by_cases hj : j = splitDim data
      · subst hj; simp
      · simp [Function.update_of_ne hj]
    have hD' : D - off (splitDim data) + (pick data).2 =
        ∑ j, Function.update off (splitDim data) (pick data).2 j := by
      rw [Finset.sum_update_of_mem (Finset.mem_univ _), hD,
        ← Finset.sum_erase_add Finset.univ off (Finset.mem_univ (splitDim data)), Finset.sdiff_singleton_eq_erase]
      ring
    have hmulD : c * (D - off (splitDim data) + (pick data).2) =
        c * D - c * off (splitDim data) + c * (pick data).2 := by ring
    have key : ∀ t1 t2 : Tree β, (∀ (D : α) (off : Pt α d), D = ∑ j, off j →
          (∀ i ∈ t1.elems indices, ∀ j, off j ≤ term j i) → ∀ (u : σ) (w : σ'), R u w →
          ∃ u' w', R u' w' ∧ searchNearest splitDim pick V dist indices t1 D (off, u) = (off, u') ∧
            searchNearest splitDim pick' W dist' indices (t1.map f) (c * D) (fun j => c * off j, w) =
              (fun j => c * off j, w')) →
        (∀ (D : α) (off : Pt α d), D = ∑ j, off j →
          (∀ i ∈ t2.elems indices, ∀ j, off j ≤ term j i) → ∀ (u : σ) (w : σ'), R u w →
          ∃ u' w', R u' w' ∧ searchNearest splitDim pick V dist indices t2 D (off, u) = (off, u') ∧
            searchNearest splitDim pick' W dist' indices (t2.map f) (c * D) (fun j => c * off j, w) =
              (fun j => c * off j, w')) →
        (∀ i ∈ t1.elems indices, i ∈ (Tree.branch data l r).elems indices) →
        (∀ i ∈ t2.elems indices, i ∈ (Tree.branch data l r).elems indices) →
        (∀ i ∈ t2.elems indices, (pick data).2 ≤ term (splitDim data) i) →
        ∃ u' w', R u' w' ∧
          (let st1 := searchNearest splitDim pick V dist indices t1 D (off, u)
           let oldOffset := st1.1 (splitDim data)
           let D' := D - oldOffset + (pick data).2
           if V.max st1.2 ≥ D' then
            let st' := (Function.update st1.1 (splitDim data) (pick data).2, st1.2)
            let st2 := searchNearest splitDim pick V dist indices t2 D' st'
            (Function.update st2.1 (splitDim data) oldOffset, st2.2)
           else st1) = (off, u') ∧
          (let st1 := searchNearest splitDim pick' W dist' indices (t1.map f) (c * D) (fun j => c * off j, w)
           let oldOffset := st1.1 (splitDim data)
           let D' := c * D - oldOffset + c * (pick data).2
           if W.max st1.2 ≥ D' then
            let st' := (Function.update st1.1 (splitDim data) (c * (pick data).2), st1.2)
            let st2 := searchNearest splitDim pick' W dist' indices (t2.map f) D' st'
            (Function.update st2.1 (splitDim data) oldOffset, st2.2)
           else st1) = (fun j => c * off j, w') := by
      intro t1 t2 h1 h2 hs1 hs2 hg
      obtain ⟨u1, w1, r1, e1, e2⟩ := h1 D off hD (fun i hi => hoff i (hs1 i hi)) u w hR
      rw [e1, e2]
      dsimp only
      rw [← hmulD, ← hupd]
      have hoff' : ∀ i ∈ t2.elems indices, ∀ j,
          Function.update off (splitDim data) (pick data).2 j ≤ term j i := by
        intro i hi j
        by_cases hj : j = splitDim data
        · subst hj; simpa using hg i hi
        · simpa [Function.update_of_ne hj] using hoff i (hs2 i hi) j
      obtain ⟨u2, w2, r2, k1, k2⟩ := h2 _ _ hD' hoff' u1 w1 r1
      have hback : Function.update (Function.update off (splitDim data) (pick data).2) (splitDim data)
          (off (splitDim data)) = off := by
        rw [Function.update_idem, Function.update_eq_self]
      have hback' : Function.update (fun j => c * Function.update off (splitDim data) (pick data).2 j)
          (splitDim data) (c * off (splitDim data)) = fun j => c * off j := by
        rw [hupd, Function.update_idem]
        exact Function.update_eq_self (splitDim data) fun j => c * off j
      cases hel : t2.elems indices with
      | nil =>
        rw [searchNearest_empty splitDim pick V dist indices t2 hel,
          searchNearest_empty splitDim pick' W dist' indices (t2.map f) (by rw [Tree.elems_map, hel])]
        refine ⟨u1, w1, r1, ?_, ?_⟩
        · split_ifs
          · rw [hback]
          · rfl
        · split_ifs
          · rw [hback']
          · rfl
      | cons i rest =>
        have hi : i ∈ t2.elems indices := by rw [hel]; simp
        have hle : D - off (splitDim data) + (pick data).2 ≤ dist i := by
          rw [hD', hterm i (hA i (hs2 i hi))]
          exact Finset.sum_le_sum fun j _ => hoff' i hi j
        have hiff := hmax u1 w1 i _ (hA i (hs2 i hi)) r1 hle
        by_cases hc : D - off (splitDim data) + (pick data).2 ≤ V.max u1
        · refine ⟨u2, w2, r2, ?_, ?_⟩
          · rw [if_pos hc, k1]
            dsimp only
            rw [hback]
          · rw [if_pos (hiff.1 hc), k2]
            dsimp only
            rw [hback']
        · refine ⟨u1, w1, r1, ?_, ?_⟩
          · rw [if_neg hc]
          · rw [if_neg (mt hiff.2 hc)]
    have hl : ∀ i ∈ l.elems indices, i ∈ (Tree.branch data l r).elems indices := fun i hi => by
      rw [Tree.elems]; exact List.mem_append_left _ hi
    have hr : ∀ i ∈ r.elems indices, i ∈ (Tree.branch data l r).elems indices := fun i hi => by
      rw [Tree.elems]; exact List.mem_append_right _ hi
    have hg := hG.1
    cases hb : (pick data).1 with
    | true =>
      rw [hb] at hg
      obtain ⟨u', w', k1, k2, k3⟩ := key l r
        (fun D off hD ho u w hR => ihl (fun i hi => hA i (hl i hi)) hG.2.1 D off hD ho u w hR)
        (fun D off hD ho u w hR => ihr (fun i hi => hA i (hr i hi)) hG.2.2 D off hD ho u w hR) hl hr hg
      refine ⟨u', w', k1, ?_, ?_⟩
      · rw [← k2]
        simp only [searchNearest, hb, if_true]
      · rw [← k3]
        simp only [searchNearest, Tree.map, hdim, hpick, hb, if_true]
    | false =>
      rw [hb] at hg
      obtain ⟨u', w', k1, k2, k3⟩ := key r l
        (fun D off hD ho u w hR => ihr (fun i hi => hA i (hr i hi)) hG.2.2 D off hD ho u w hR)
        (fun D off hD ho u w hR => ihl (fun i hi => hA i (hl i hi)) hG.2.1 D off hD ho u w hR) hr hl hg
      refine ⟨u', w', k1, ?_, ?_⟩
      · rw [← k2]
        simp only [searchNearest, hb, if_false, Bool.false_eq_true]
      · rw [← k3]
        simp only [searchNearest, Tree.map, hdim, hpick, hb, if_false, Bool.false_eq_true]

end Search

section Visitors
variable {α : Type} [LinearOrder α] [Mul α]

/-- A neighbor with its distance multiplied. -/
def Neighbor.scale (c : α) (x : Neighbor α) : Neighbor α := ⟨x.index, c * x.distance⟩

/-- The states of two `search_nn` visitors: nothing found, or the same point. -/
def NnSimilar (N : Num α) (c : α) (u w : Neighbor α) : Prop :=
  (u.distance = N.big ∧ w.distance = N.big) ∨ w = u.scale c

variable {N : Num α} {c : α}

/-- Multiplication with `c` respects the order. -/
def Increasing (c : α) : Prop := ∀ x y : α, c * x < c * y ↔ x < y

theorem Increasing.le (hc : Increasing c) (x y : α) : c * x ≤ c * y ↔ x ≤ y := by
  rw [← not_lt, ← not_lt, hc]

theorem nnSimilar_visit (hc : Increasing c) {u w : Neighbor α} (h : NnSimilar N c u w) (i : Nat) {x : α} (hx : x < N.big)
    (hx' : c * x < N.big) : NnSimilar N c (nnVisitor.visit u i x) (nnVisitor.visit w i (c * x)) := by
  simp only [nnVisitor, gt_iff_lt]
  rcases h with ⟨h1, h2⟩ | rfl
  · rw [h1, h2, if_pos hx, if_pos hx']
    exact Or.inr rfl
  · simp only [Neighbor.scale, hc _ _]
    split_ifs
    · exact Or.inr rfl
    · exact Or.inr rfl

theorem nnSimilar_max (hc : Increasing c) {u w : Neighbor α} (h : NnSimilar N c u w) {x D : α} (hD : D ≤ x) (hx : x < N.big)
    (hx' : c * x < N.big) : D ≤ u.distance ↔ c * D ≤ w.distance := by
  rcases h with ⟨h1, h2⟩ | rfl
  · rw [h1, h2]
    exact iff_of_true (hD.trans hx.le) (((hc.le _ _).2 hD).trans hx'.le)
  · simp only [Neighbor.scale, hc.le _ _]

theorem ins_scale (hc : Increasing c) (x : Neighbor α) (l : List (Neighbor α)) :
    ins (x.scale c) (l.map (Neighbor.scale c)) = (ins x l).map (Neighbor.scale c) := by
  induction l with
  | nil => rfl
  | cons y l ih =>
    simp only [List.map_cons, ins, ih]
    simp only [Neighbor.scale, hc _ _]
    split_ifs <;> rfl

theorem sorted_scale (hc : Increasing c) {l : List (Neighbor α)} (h : l.Pairwise fun a b => a.distance ≤ b.distance) :
    (l.map (Neighbor.scale c)).Pairwise fun a b => a.distance ≤ b.distance := by
  rw [List.pairwise_map]
  exact h.imp fun hab => (hc.le _ _).2 hab

/-- The states of two `search_knn` visitors: the same list, followed by unwritten entries. -/
def KnnSimilar (c : α) (i₁ i₂ : List (Neighbor α)) (u w : KnnState α) : Prop :=
  ∃ L : List (Neighbor α), L.length ≤ i₁.length ∧ L.Pairwise (fun a b => a.distance ≤ b.distance) ∧
    u = ⟨L ++ i₁.drop L.length, L.length⟩ ∧
    w = ⟨L.map (Neighbor.scale c) ++ i₂.drop L.length, L.length⟩

theorem knnVisit_full {L : List (Neighbor α)} (hl : 0 < L.length)
    (hs : L.Pairwise fun a b => a.distance ≤ b.distance) (i : Nat) (x : α) :
    ∃ L0 z, L = L0 ++ [z] ∧ knnVisit N ⟨L, L.length⟩ i x =
      if x < z.distance then ⟨ins ⟨i, x⟩ L0, L.length⟩ else ⟨L, L.length⟩ := by
  obtain ⟨L0, z, rfl⟩ : ∃ L0 z, L = L0 ++ [z] :=
    ⟨L.dropLast, L.getLast (List.ne_nil_of_length_pos hl), (List.dropLast_append_getLast _).symm⟩
  refine ⟨L0, z, rfl, ?_⟩
  unfold knnVisit
  have hm : knnMax N ⟨L0 ++ [z], (L0 ++ [z]).length⟩ = z.distance := by simp [knnMax]
  rw [hm]
  by_cases hx : x < z.distance
  · rw [if_pos hx, if_pos hx]
    dsimp only
    rw [if_neg (lt_irrefl _)]
    unfold insertSorted
    have hlen : (L0 ++ [z]).length - 1 = L0.length := by simp
    rw [hlen, insertLoop_eq _ _ _ _ (List.pairwise_append.1 hs).1, List.append_nil]
  · rw [if_neg hx, if_neg hx]

theorem knnSimilar_visit (hc : Increasing c) {i₁ i₂ : List (Neighbor α)} (hlen : i₁.length = i₂.length)
    (h₁ : ∃ x, i₁.getLast? = some x ∧ x.distance = N.big)
    (h₂ : ∃ x, i₂.getLast? = some x ∧ x.distance = N.big) {u w : KnnState α} (h : KnnSimilar c i₁ i₂ u w) (i : Nat)
    {x : α} (hx : x < N.big) (hx' : c * x < N.big) :
    KnnSimilar c i₁ i₂ (knnVisit N u i x) (knnVisit N w i (c * x)) := by
  obtain ⟨L, l1, hs, rfl, rfl⟩ := h
  have hs' := sorted_scale hc hs
  rcases lt_or_eq_of_le l1 with hlt | heq
  · have e1 := knnVisit_partial h₁ L hlt hs i x
    have e2 := knnVisit_partial h₂ (L.map (Neighbor.scale c)) (by simpa [← hlen] using hlt) hs' i (c * x)
    rw [if_pos hx] at e1
    rw [if_pos hx', List.length_map] at e2
    rw [e1, e2]
    refine ⟨ins ⟨i, x⟩ L, by rw [ins_length]; exact hlt, ins_sorted _ _ hs, ?_, ?_⟩
    · rw [ins_length]
    · rw [ins_length, ← ins_scale hc]
      rfl
  · have d1 : i₁.drop L.length = [] := List.drop_eq_nil_of_le heq.ge
    have d2 : i₂.drop L.length = [] := List.drop_eq_nil_of_le (by omega)
    have hpos : 0 < L.length := by
      obtain ⟨y, hy, _⟩ := h₁
      cases i₁ with
      | nil => simp at hy
      | cons _ _ => simp [heq]
    rw [d1, d2, List.append_nil, List.append_nil]
    obtain ⟨L0, z, rfl, e1⟩ := knnVisit_full (N := N) hpos hs i x
    obtain ⟨L0', z', hL0', e2⟩ := knnVisit_full (N := N) (L := (L0 ++ [z]).map (Neighbor.scale c)) (by simp) hs' i (c * x)
    rw [List.map_append, List.map_singleton] at hL0'
    obtain ⟨rfl, hz⟩ := List.append_inj' hL0' rfl
    obtain rfl : z.scale c = z' := by simpa using hz
    rw [List.length_map] at e2
    rw [e1, e2]
    have hlt : c * x < (z.scale c).distance ↔ x < z.distance := hc _ _
    simp only [hlt]
    have hlen0 : (ins ⟨i, x⟩ L0).length = (L0 ++ [z]).length := by rw [ins_length]; simp
    split_ifs with hxz
    · refine ⟨ins ⟨i, x⟩ L0, by rw [hlen0]; exact l1, ins_sorted _ _ (List.pairwise_append.1 hs).1, ?_, ?_⟩
      · rw [hlen0, d1, List.append_nil]
      · rw [hlen0, d2, List.append_nil, ← ins_scale hc]
        rfl
    · exact ⟨L0 ++ [z], l1, hs, by rw [d1, List.append_nil], by rw [d2, List.append_nil]⟩

theorem knnSimilar_max (hc : Increasing c) {i₁ i₂ : List (Neighbor α)} (hlen : i₁.length = i₂.length)
    (h₁ : ∃ x, i₁.getLast? = some x ∧ x.distance = N.big)
    (h₂ : ∃ x, i₂.getLast? = some x ∧ x.distance = N.big) {u w : KnnState α} (h : KnnSimilar c i₁ i₂ u w)
    {x D : α} (hD : D ≤ x) (hx : x < N.big) (hx' : c * x < N.big) :
    D ≤ knnMax N u ↔ c * D ≤ knnMax N w := by
  obtain ⟨L, l1, hs, rfl, rfl⟩ := h
  rcases lt_or_eq_of_le l1 with hlt | heq
  · have e1 := knnMax_partial h₁ L hlt
    have e2 := knnMax_partial h₂ (L.map (Neighbor.scale c)) (by simpa [← hlen] using hlt)
    rw [List.length_map] at e2
    rw [e1, e2]
    exact iff_of_true (hD.trans hx.le) (((hc.le _ _).2 hD).trans hx'.le)
  · have d1 : i₁.drop L.length = [] := List.drop_eq_nil_of_le heq.ge
    have d2 : i₂.drop L.length = [] := List.drop_eq_nil_of_le (by omega)
    have hpos : 0 < L.length := by
      obtain ⟨y, hy, _⟩ := h₁
      cases i₁ with
      | nil => simp at hy
      | cons _ _ => simp [heq]
    rw [d1, d2, List.append_nil, List.append_nil]
    obtain ⟨L0, z, rfl⟩ : ∃ L0 z, L = L0 ++ [z] :=
      ⟨L.dropLast, L.getLast (List.ne_nil_of_length_pos hpos), (List.dropLast_append_getLast _).symm⟩
    simp [knnMax, Neighbor.scale, hc.le _ _]

end Visitors

theorem increasing_of_pos {α : Type} [CommRing α] [LinearOrder α] [IsStrictOrderedRing α] {c : α} (hc : 0 < c) :
    Increasing c := fun _ _ => mul_lt_mul_iff_right₀ hc

section Box
variable {α : Type} [CommRing α] [LinearOrder α] [IsStrictOrderedRing α] {d : Nat} {β : Type}

theorem reportLeft_similar (f : β → β) (t : Tree β) : reportLeft (t.map f) = reportLeft t := by
  induction t with
  | leaf => rfl
  | branch _ l r ihl _ => simpa [Tree.map, reportLeft] using ihl

theorem reportRight_similar (f : β → β) (t : Tree β) : reportRight (t.map f) = reportRight t := by
  induction t with
  | leaf => rfl
  | branch _ l r _ ihr => simpa [Tree.map, reportRight] using ihr

theorem reportNode_similar (f : β → β) (indices : List Nat) (t : Tree β) (out : List Nat) :
    reportNode indices (t.map f) out = reportNode indices t out := by
  cases t with
  | leaf => rfl
  | branch _ l r => simp only [Tree.map, reportNode, reportLeft_similar, reportRight_similar]

theorem searchBox_similar (s : α) (t : Pt α d) (splitDim : β → Fin d) (leftMax rightMin : β → α)
    (containsPt containsPt' : Nat → Bool) (containsBox containsBox' : Box α d → Bool)
    (intersectsLeft intersectsRight intersectsLeft' intersectsRight' : β → Bool) (indices : List Nat) (f : β → β)
    (hdim : ∀ b, splitDim (f b) = splitDim b)
    (hleft : ∀ b, leftMax (f b) = s * leftMax b + t (splitDim b))
    (hright : ∀ b, rightMin (f b) = s * rightMin b + t (splitDim b))
    (hpt : containsPt' = containsPt) (hbox : ∀ b, containsBox' (b.similar s t) = containsBox b)
    (hil : ∀ b, intersectsLeft' (f b) = intersectsLeft b) (hir : ∀ b, intersectsRight' (f b) = intersectsRight b)
    (tree : Tree β) (box : Box α d) (out : List Nat) :
    searchBox splitDim leftMax rightMin containsPt' containsBox' intersectsLeft' intersectsRight' indices
        (tree.map f) (box.similar s t, out) =
      ((searchBox splitDim leftMax rightMin containsPt containsBox intersectsLeft intersectsRight indices tree
        (box, out)).1.similar s t,
       (searchBox splitDim leftMax rightMin containsPt containsBox intersectsLeft intersectsRight indices tree
        (box, out)).2) := by
  subst hpt
  induction tree generalizing box out with
  | leaf b e => rfl
  | branch data l r ihl ihr =>
    have hmax : ∀ (b : Box α d) j, (b.similar s t).max j = s * b.max j + t j := fun _ _ => rfl
    have hmin : ∀ (b : Box α d) j, (b.similar s t).min j = s * b.min j + t j := fun _ _ => rfl
    simp only [Tree.map, searchBox, hdim, hleft, hright, hil, hir, reportNode_similar, hmax, Box.similar_setMax, hbox]
    cases containsBox (box.setMax (splitDim data) (leftMax data)) with
    | true =>
      simp only [if_true, Box.similar_setMax, hmin, Box.similar_setMin, hbox]
      split_ifs <;> simp only [ihr, Box.similar_setMin]
    | false =>
      simp only [if_false, Bool.false_eq_true]
      cases intersectsLeft data with
      | true =>
        simp only [if_true, ihl, Box.similar_setMax, hmin, Box.similar_setMin, hbox]
        split_ifs <;> simp only [ihr, Box.similar_setMin]
      | false =>
        simp only [if_false, Bool.false_eq_true, Box.similar_setMax, hmin, Box.similar_setMin, hbox]
        split_ifs <;> simp only [ihr, Box.similar_setMin]

theorem insertLeafRange_map (f : β → β) (t : Tree β) (l : List (Nat × Nat)) :
    insertLeafRange (t.map f) l = insertLeafRange t l := by
  induction t generalizing l with
  | leaf => rfl
  | branch _ a b iha ihb =>
    simp only [Tree.map, insertLeafRange, iha]
    congr 1
    funext x
    exact ihb x

end Box

end Pico
