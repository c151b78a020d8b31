import Verif.Proof.Built
import Verif.Proof.Search

/-! # Which points the construction and the searches depend on -/

set_option linter.unusedSectionVars false

namespace Pico

/-- The algorithms apply the predicate and the comparator to elements of the range only ([alg.partitions],
[alg.nth.element]: the arguments are dereferenced iterators of the range). -/
structure Std.Local (S : Std) : Prop where
  partition : ∀ p p' l, (∀ x ∈ l, p x = p' x) → S.partition p l = S.partition p' l
  nth : ∀ lt lt' k l, (∀ x ∈ l, ∀ y ∈ l, lt x y = lt' x y) → S.nth lt k l = S.nth lt' k l

section Search
variable {α : Type} [LinearOrder α] [Zero α] [Add α] [Sub α] {d : Nat} {β σ : Type}

theorem mem_slice_frame {indices : List Nat} {b e i : Nat} (h : i ∈ slice indices b e) : i ∈ indices := by
  unfold slice at h
  exact List.mem_of_mem_drop (List.mem_of_mem_take h)

theorem visitAll_frame (V : Visitor α σ) {dist dist' : Nat → α} {l : List Nat} (h : ∀ i ∈ l, dist i = dist' i)
    (s : σ) : visitAll V dist l s = visitAll V dist' l s := by
  unfold visitAll
  induction l generalizing s with
  | nil => rfl
  | cons i l ih =>
    rw [List.foldl_cons, List.foldl_cons, h i (by simp)]
    exact ih (fun j hj => h j (by simp [hj])) _

theorem searchNearest_frame (splitDim : β → Fin d) (pick : β → Bool × α) (V : Visitor α σ)
    {dist dist' : Nat → α} {indices : List Nat} (h : ∀ i ∈ indices, dist i = dist' i) (t : Tree β) (D : α)
    (st : Pt α d × σ) :
    searchNearest splitDim pick V dist indices t D st = searchNearest splitDim pick V dist' indices t D st := by
  induction t generalizing D st with
  | leaf b e =>
    unfold searchNearest
    rw [visitAll_frame V fun i hi => h i (mem_slice_frame hi)]
  | branch data l r ihl ihr => simp only [searchNearest, ihl, ihr]

theorem searchBox_frame (splitDim : β → Fin d) (leftMax rightMin : β → α) {cp cp' : Nat → Bool}
    (containsBox : Box α d → Bool) (il ir : β → Bool) {indices : List Nat} (h : ∀ i ∈ indices, cp i = cp' i)
    (t : Tree β) (st : Box α d × List Nat) :
    searchBox splitDim leftMax rightMin cp containsBox il ir indices t st =
      searchBox splitDim leftMax rightMin cp' containsBox il ir indices t st := by
  induction t generalizing st with
  | leaf b e =>
    simp only [searchBox]
    rw [List.filter_congr fun i hi => h i (mem_slice_frame hi)]
  | branch data l r ihl ihr => simp only [searchBox, ihl, ihr]

end Search

section Build
variable {α : Type} [LinearOrder α] [Sub α] [Add α] {d : Nat} {β : Type}

theorem fit_frame {pts pts' : Nat → Pt α d} {l : List Nat} (h : ∀ i ∈ l, pts i = pts' i) (b : Box α d) :
    l.foldl (fun b i => b.fitPt (pts i)) b = l.foldl (fun b i => b.fitPt (pts' i)) b := by
  induction l generalizing b with
  | nil => rfl
  | cons i l ih =>
    rw [List.foldl_cons, List.foldl_cons, h i (by simp)]
    exact ih (fun j hj => h j (by simp [hj])) _

theorem nthSplit_frame {S : Std} (hS : S.Local) {pts pts' : Nat → Pt α d} {seg : List Nat}
    (h : ∀ i ∈ seg, pts i = pts' i) (dim : Fin d) (k : Nat) :
    nthSplit S pts dim k seg = nthSplit S pts' dim k seg := by
  have e : S.nth (coordLt pts dim) k seg = S.nth (coordLt pts' dim) k seg :=
    hS.nth _ _ _ _ fun x hx y hy => by simp only [coordLt, h x hx, h y hy]
  unfold nthSplit
  rw [e]
  dsimp only
  cases hk : (S.nth (coordLt pts' dim) k seg)[k]? with
  | none => rfl
  | some i =>
    have hi : i ∈ seg := (S.nth_perm _ _ _ (strictWeak_coordLt pts' dim)).mem_iff.1 (List.mem_of_getElem? hk)
    simp only [h i hi]

theorem partition_frame {S : Std} (hS : S.Local) {pts pts' : Nat → Pt α d} {seg : List Nat}
    (h : ∀ i ∈ seg, pts i = pts' i) (dim : Fin d) (v : α) :
    S.partition (coordBelow pts dim v) seg = S.partition (coordBelow pts' dim v) seg :=
  hS.partition _ _ _ fun x hx => by simp only [coordBelow, h x hx]

theorem splitMidpoint_frame {S : Std} (hS : S.Local) (N : Num α) {pts pts' : Nat → Pt α d} {seg : List Nat}
    (h : ∀ i ∈ seg, pts i = pts' i) (box : Box α d) :
    splitMidpoint S N pts seg box = splitMidpoint S N pts' seg box := by
  simp only [splitMidpoint, partition_frame hS h]

theorem splitSliding_frame {S : Std} (hS : S.Local) (N : Num α) {pts pts' : Nat → Pt α d} {seg : List Nat}
    (h : ∀ i ∈ seg, pts i = pts' i) (box : Box α d) :
    splitSliding S N pts seg box = splitSliding S N pts' seg box := by
  simp only [splitSliding, partition_frame hS h]
  split
  · rfl
  · rename_i dim delta _
    have hmem : ∀ i ∈ (S.partition (coordBelow pts' dim (N.divTwo delta + box.min dim)) seg).1,
        pts i = pts' i := fun i hi => h i ((S.partition_perm _ _).mem_iff.1 hi)
    have e := fun k => nthSplit_frame hS hmem dim k
    simp only [e]

theorem splitter_frame {C : BuildCfg α d β} (hS : C.S.Local) {pts' : Nat → Pt α d} {seg : List Nat}
    (h : ∀ i ∈ seg, C.pts i = pts' i) (box : Box α d) :
    splitter C seg box = splitter { C with pts := pts' } seg box := by
  unfold splitter
  cases hr : C.rule with
  | median =>
    simp only [splitMedian]
    split
    · rfl
    · exact nthSplit_frame hS h _ _
  | midpoint => exact splitMidpoint_frame hS C.N h box
  | sliding => exact splitSliding_frame hS C.N h box

theorem createNode_frame {C : BuildCfg α d β} (hS : C.S.Local) {pts' : Nat → Pt α d} (fuel : Nat) (depth : Int)
    (off : Nat) {seg : List Nat} (h : ∀ i ∈ seg, C.pts i = pts' i) (box : Box α d) :
    createNode C fuel depth off seg box = createNode { C with pts := pts' } fuel depth off seg box := by
  induction fuel generalizing depth off seg box with
  | zero => rfl
  | succ fuel ih =>
    unfold createNode
    have hl : isLeaf { C with pts := pts' } depth seg.length = isLeaf C depth seg.length := rfl
    rw [hl]
    split
    · have : leafBox C seg box = leafBox { C with pts := pts' } seg box := by
        unfold leafBox computeBoundingBox
        rw [fit_frame h]
      rw [this]
    · rw [splitter_frame hS h]
      cases hs : splitter { C with pts := pts' } seg box with
      | ub => rfl
      | oof => rfl
      | ok sp =>
        have hm : ∀ i ∈ sp.seg, C.pts i = pts' i := fun i hi =>
          h i ((splitter_ok hs).1.perm.mem_iff.1 hi)
        simp only [Outcome.bind]
        rw [ih _ _ (fun i hi => hm i (List.mem_of_mem_take hi))]
        cases createNode { C with pts := pts' } fuel (depth + 1) off (sp.seg.take sp.pos)
          (box.setMax sp.dim sp.val) with
        | ub => rfl
        | oof => rfl
        | ok x =>
          simp only
          rw [ih _ _ (fun i hi => hm i (List.mem_of_mem_drop hi))]

theorem buildTree_frame {C : BuildCfg α d β} (hS : C.S.Local) {pts' : Nat → Pt α d} {n : Nat}
    (h : ∀ i < n, C.pts i = pts' i) (bounds : Bounds α d) (fuel : Nat) :
    buildTree C n bounds fuel = buildTree { C with pts := pts' } n bounds fuel := by
  have h' : ∀ i ∈ List.range n, C.pts i = pts' i := fun i hi => h i (List.mem_range.1 hi)
  have hb : boxFromBounds C.N C.pts n bounds = boxFromBounds C.N pts' n bounds := by
    cases bounds with
    | fromSpace => exact fit_frame h' _
    | given mn mx => rfl
  unfold buildTree
  simp only
  rw [hb, createNode_frame hS _ _ _ h']

end Build

end Pico
