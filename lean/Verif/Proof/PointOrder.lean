import Verif.Proof.Approx
import Verif.Proof.Build
import Verif.Proof.Looked
import Verif.Proof.Shape
import Verif.SpecTree
import Mathlib.Tactic.Order

/-!
# Trees over the same points in another order

Lemmas for C145: the construction and the traversal depend on the points in a segment, not on their order.
-/

namespace Pico

open Spec

/-- Points that agree in one coordinate are equal. -/
def Untied {α : Type} {d : Nat} (X : List (Pt α d)) : Prop := ∀ x ∈ X, ∀ y ∈ X, ∀ j, x j = y j → x = y

section Split
variable {τ κ : Type} [LinearOrder κ] (f : τ → κ) {A B A' B' : List τ}

/-- The smallest so many keys of a list are what they are. -/
theorem keys_of_split (hp : ((A ++ B).map f).Perm ((A' ++ B').map f)) (hl : A.length = A'.length)
    (hA : ∀ x ∈ A, ∀ y ∈ B, f x ≤ f y) (hA' : ∀ x ∈ A', ∀ y ∈ B', f x ≤ f y) :
    (A.map f).mergeSort (fun a b => decide (a ≤ b)) = (A'.map f).mergeSort (fun a b => decide (a ≤ b)) := by
  have key : ∀ A B : List τ, (∀ x ∈ A, ∀ y ∈ B, f x ≤ f y) →
      (A.map f).mergeSort (fun a b => decide (a ≤ b)) ++ (B.map f).mergeSort (fun a b => decide (a ≤ b)) =
        ((A ++ B).map f).mergeSort (fun a b => decide (a ≤ b)) := by
    intro A B h
    refine eq_mergeSort ?_ ?_
    · refine List.pairwise_append.2 ⟨mergeSort_sorted _, mergeSort_sorted _, fun a ha b hb => ?_⟩
      obtain ⟨x, hx, rfl⟩ := List.mem_map.1 ((List.mergeSort_perm _ _).subset ha)
      obtain ⟨y, hy, rfl⟩ := List.mem_map.1 ((List.mergeSort_perm _ _).subset hb)
      exact h x hx y hy
    · rw [List.map_append]
      exact (List.mergeSort_perm _ _).append (List.mergeSort_perm _ _)
  have h1 := key A B hA
  have h2 := key A' B' hA'
  rw [eq_mergeSort (mergeSort_sorted ((A ++ B).map f)) ((List.mergeSort_perm _ _).trans hp), ← h2] at h1
  refine (List.append_inj h1 ?_).1
  simp [hl]

/-- If the keys are different for different elements, the elements are what they are as well. -/
theorem perm_of_split (hp : (A ++ B).Perm (A' ++ B')) (hl : A.length = A'.length)
    (hA : ∀ x ∈ A, ∀ y ∈ B, f x ≤ f y) (hA' : ∀ x ∈ A', ∀ y ∈ B', f x ≤ f y)
    (hf : ∀ x ∈ A ++ B, ∀ y ∈ A ++ B, f x = f y → x = y) : A.Perm A' ∧ B.Perm B' := by
  have hperm : A.Perm A' := by
    have hk := keys_of_split f (hp.map f) hl hA hA'
    have hm : (A.map f).Perm (A'.map f) :=
      ((List.mergeSort_perm (A.map f) _).symm.trans (List.Perm.of_eq hk)).trans (List.mergeSort_perm (A'.map f) _)
    rcases A with _ | ⟨a, A⟩
    · have : A' = [] := List.length_eq_zero_iff.1 (by simpa using hl.symm)
      rw [this]
    · have : Nonempty τ := ⟨a⟩
      have hinv : ∀ x ∈ (a :: A) ++ B, Function.invFunOn f {x | x ∈ (a :: A) ++ B} (f x) = x := by
        intro x hx
        have h1 := Function.invFunOn_mem (f := f) (s := {x | x ∈ (a :: A) ++ B}) ⟨x, hx, rfl⟩
        have h2 := Function.invFunOn_eq (f := f) (s := {x | x ∈ (a :: A) ++ B}) ⟨x, hx, rfl⟩
        exact hf _ h1 _ hx h2
      have e1 : ((a :: A).map f).map (Function.invFunOn f {x | x ∈ (a :: A) ++ B}) = a :: A := by
        rw [List.map_map]
        conv_rhs => rw [← List.map_id (a :: A)]
        exact List.map_congr_left fun x hx => hinv x (List.mem_append_left _ hx)
      have e2 : (A'.map f).map (Function.invFunOn f {x | x ∈ (a :: A) ++ B}) = A' := by
        rw [List.map_map]
        conv_rhs => rw [← List.map_id A']
        exact List.map_congr_left fun x hx => hinv x (hp.symm.subset (List.mem_append_left _ hx))
      have := hm.map (Function.invFunOn f {x | x ∈ (a :: A) ++ B})
      rwa [e1, e2] at this
  refine ⟨hperm, ?_⟩
  have h1 : (A ++ B).Perm (A ++ B') := hp.trans (hperm.symm.append_right B')
  exact (List.perm_append_left_iff A).1 h1

end Split

section Builder
variable {α : Type} [LinearOrder α] [Add α] [Sub α] {d : Nat} {β : Type} {pts pts' : Nat → Pt α d} {S S' : Std}

omit [Add α] [Sub α] in
theorem fitPt_comm (b : Box α d) (x y : Pt α d) : (b.fitPt x).fitPt y = (b.fitPt y).fitPt x := by
  have hmin : ∀ a x y : α, (if y < (if x < a then x else a) then y else (if x < a then x else a)) =
      if x < (if y < a then y else a) then x else (if y < a then y else a) := by
    intro a x y
    split_ifs <;> first | rfl | (apply le_antisymm <;> order) | order
  have hmax : ∀ a x y : α, (if y > (if x > a then x else a) then y else (if x > a then x else a)) =
      if x > (if y > a then y else a) then x else (if y > a then y else a) := by
    intro a x y
    split_ifs <;> first | rfl | (apply le_antisymm <;> order) | order
  simp only [Box.fitPt, Box.mk.injEq]
  exact ⟨funext fun i => hmin _ _ _, funext fun i => hmax _ _ _⟩

omit [Add α] [Sub α] in
theorem foldBox_same {seg seg' : List Nat} (h : (seg.map pts).Perm (seg'.map pts')) (b : Box α d) :
    seg.foldl (fun b i => b.fitPt (pts i)) b = seg'.foldl (fun b i => b.fitPt (pts' i)) b := by
  have e : ∀ (p : Nat → Pt α d) (l : List Nat), l.foldl (fun b i => b.fitPt (p i)) b = (l.map p).foldl Box.fitPt b :=
    fun p l => (List.foldl_map).symm
  rw [e, e]
  have : RightCommutative (Box.fitPt (α := α) (d := d)) := ⟨fitPt_comm⟩
  exact h.foldl_eq b

/-- Both segments are split in the same way. -/
structure SameSplit (pts pts' : Nat → Pt α d) (sp sp' : Split α d) : Prop where
  pos : sp'.pos = sp.pos
  dim : sp'.dim = sp.dim
  val : sp'.val = sp.val
  left : ((sp.seg.take sp.pos).map pts).Perm ((sp'.seg.take sp.pos).map pts')
  right : ((sp.seg.drop sp.pos).map pts).Perm ((sp'.seg.drop sp.pos).map pts')

omit [Add α] [Sub α] in
theorem nthSplit_same {dim : Fin d} {k : Nat} {seg seg' : List Nat} {sp : Split α d}
    (h : (seg.map pts).Perm (seg'.map pts')) (hU : Untied (seg.map pts)) (hs : nthSplit S pts dim k seg = .ok sp) :
    ∃ sp', nthSplit S' pts' dim k seg' = .ok sp' ∧ SameSplit pts pts' sp sp' := by
  have hsw := strictWeak_coordLt pts dim
  have hsw' := strictWeak_coordLt pts' dim
  have hp := S.nth_perm (coordLt pts dim) k seg hsw
  have hp' := S'.nth_perm (coordLt pts' dim) k seg' hsw'
  have hlen : seg.length = seg'.length := by simpa using h.length_eq
  unfold nthSplit at hs ⊢
  dsimp only at hs ⊢
  split at hs
  · cases hs
  · rename_i i hi
    cases hs
    have hk : k < seg.length := by
      have := List.getElem?_eq_some_iff.1 hi
      obtain ⟨h1, -⟩ := this
      rwa [hp.length_eq] at h1
    have hk' : k < (S'.nth (coordLt pts' dim) k seg').length := by rw [hp'.length_eq, ← hlen]; exact hk
    have hi' : (S'.nth (coordLt pts' dim) k seg')[k]? = some (S'.nth (coordLt pts' dim) k seg')[k] :=
      List.getElem?_eq_getElem hk'
    rw [hi']
    have hA := S.nth_split (coordLt pts dim) k seg hsw hk
    have hA' := S'.nth_split (coordLt pts' dim) k seg' hsw' (hlen ▸ hk)
    have hM := S.nth_min (coordLt pts dim) k seg hsw hk i hi
    have hM' := S'.nth_min (coordLt pts' dim) k seg' hsw' (hlen ▸ hk) _ hi'
    generalize hL : S.nth (coordLt pts dim) k seg = L at *
    generalize hL' : S'.nth (coordLt pts' dim) k seg' = L' at *
    have hpp : ((L.take k).map pts ++ (L.drop k).map pts).Perm ((L'.take k).map pts' ++ (L'.drop k).map pts') := by
      rw [← List.map_append, ← List.map_append, List.take_append_drop, List.take_append_drop]
      exact ((hp.map pts).trans h).trans (hp'.map pts').symm
    have hX : ((L.take k).map pts ++ (L.drop k).map pts).Perm (seg.map pts) := by
      rw [← List.map_append, List.take_append_drop]
      exact hp.map pts
    obtain ⟨g1, g2⟩ := perm_of_split (fun x : Pt α d => x dim) hpp
      (by simp only [List.length_map, List.length_take]; rw [hp.length_eq, hp'.length_eq, hlen])
      (by
        intro x hx y hy
        obtain ⟨a, ha, rfl⟩ := List.mem_map.1 hx
        obtain ⟨b, hb, rfl⟩ := List.mem_map.1 hy
        simpa [coordLt] using hA a ha b hb)
      (by
        intro x hx y hy
        obtain ⟨a, ha, rfl⟩ := List.mem_map.1 hx
        obtain ⟨b, hb, rfl⟩ := List.mem_map.1 hy
        simpa [coordLt] using hA' a ha b hb)
      (fun x hx y hy he => hU x (hX.subset hx) y (hX.subset hy) dim he)
    refine ⟨_, rfl, rfl, rfl, ?_, g1, g2⟩
    have hiL : i ∈ L.drop k := by
      have := List.getElem?_eq_some_iff.1 hi
      obtain ⟨h1, rfl⟩ := this
      exact List.mem_drop_iff_getElem.2 ⟨0, by simpa using h1, by simp⟩
    have hjL : L'[k] ∈ L'.drop k := List.mem_drop_iff_getElem.2 ⟨0, by simpa using hk', by simp⟩
    show pts' L'[k] dim = pts i dim
    refine le_antisymm ?_ ?_
    · obtain ⟨a, ha, he⟩ := List.mem_map.1 (g2.subset (List.mem_map_of_mem hiL))
      rw [← he]
      simpa [coordLt] using hM' a ha
    · obtain ⟨a, ha, he⟩ := List.mem_map.1 (g2.symm.subset (List.mem_map_of_mem hjL))
      rw [← he]
      simpa [coordLt] using hM a ha

omit [Add α] [Sub α] in
/-- `std::partition` leaves the points below the value before the others. -/
theorem partition_same {dim : Fin d} {v : α} {seg seg' : List Nat} (h : (seg.map pts).Perm (seg'.map pts')) :
    (S'.partition (coordBelow pts' dim v) seg').2 = (S.partition (coordBelow pts dim v) seg).2 ∧
    (((S.partition (coordBelow pts dim v) seg).1.take (S.partition (coordBelow pts dim v) seg).2).map pts).Perm
      (((S'.partition (coordBelow pts' dim v) seg').1.take (S.partition (coordBelow pts dim v) seg).2).map pts') ∧
    (((S.partition (coordBelow pts dim v) seg).1.drop (S.partition (coordBelow pts dim v) seg).2).map pts).Perm
      (((S'.partition (coordBelow pts' dim v) seg').1.drop (S.partition (coordBelow pts dim v) seg).2).map pts') := by
  have key : ∀ (S : Std) (pts : Nat → Pt α d) (seg : List Nat),
      (((S.partition (coordBelow pts dim v) seg).1.take (S.partition (coordBelow pts dim v) seg).2).map pts).Perm
        ((seg.map pts).filter fun x => decide (x dim < v)) ∧
      (((S.partition (coordBelow pts dim v) seg).1.drop (S.partition (coordBelow pts dim v) seg).2).map pts).Perm
        ((seg.map pts).filter fun x => !decide (x dim < v)) := by
    intro S pts seg
    have h1 := S.partition_left (coordBelow pts dim v) seg
    have h2 := S.partition_right (coordBelow pts dim v) seg
    have hp := ((S.partition_perm (coordBelow pts dim v) seg).map pts)
    generalize (S.partition (coordBelow pts dim v) seg).2 = k at *
    generalize (S.partition (coordBelow pts dim v) seg).1 = L at *
    rw [← List.take_append_drop k L, List.map_append] at hp
    have hl : ∀ x ∈ (L.take k).map pts, x dim < v := by
      intro x hx
      obtain ⟨a, ha, rfl⟩ := List.mem_map.1 hx
      simpa [coordBelow] using h1 a ha
    have hr : ∀ x ∈ (L.drop k).map pts, ¬x dim < v := by
      intro x hx
      obtain ⟨a, ha, rfl⟩ := List.mem_map.1 hx
      simpa [coordBelow] using h2 a ha
    constructor
    · have := hp.filter fun x => decide (x dim < v)
      rw [List.filter_append, List.filter_eq_self.2 (fun x hx => decide_eq_true (hl x hx)),
        List.filter_eq_nil_iff.2 (fun x hx => by simpa using hr x hx), List.append_nil] at this
      exact this
    · have := hp.filter fun x => !decide (x dim < v)
      have e : ((L.take k).map pts).filter (fun x => !decide (x dim < v)) = [] :=
        List.filter_eq_nil_iff.2 fun x hx => by simpa using hl x hx
      rw [List.filter_append, e, List.filter_eq_self.2 (fun x hx => by simpa using hr x hx), List.nil_append] at this
      exact this
  obtain ⟨a1, a2⟩ := key S pts seg
  obtain ⟨b1, b2⟩ := key S' pts' seg'
  have c1 := (a1.trans (h.filter _)).trans b1.symm
  have c2 := (a2.trans (h.filter _)).trans b2.symm
  have hk : (S'.partition (coordBelow pts' dim v) seg').2 = (S.partition (coordBelow pts dim v) seg).2 := by
    have := c1.length_eq
    simp only [List.length_map, List.length_take] at this
    rw [min_eq_left, min_eq_left] at this
    · exact this.symm
    · rw [(S'.partition_perm _ _).length_eq]; exact S'.partition_le _ _
    · rw [(S.partition_perm _ _).length_eq]; exact S.partition_le _ _
  rw [hk] at c1 c2
  exact ⟨hk, c1, c2⟩

theorem splitter_same {C : BuildCfg α d β} {seg seg' : List Nat} {box : Box α d} {sp : Split α d}
    (h : (seg.map C.pts).Perm (seg'.map pts')) (hU : C.rule = .midpoint ∨ Untied (seg.map C.pts))
    (hs : splitter C seg box = .ok sp) :
    ∃ sp', splitter { C with pts := pts', S := S' } seg' box = .ok sp' ∧ SameSplit C.pts pts' sp sp' := by
  have hlen : seg.length = seg'.length := by simpa using h.length_eq
  unfold splitter at hs ⊢
  cases hr : C.rule with
  | median =>
    have hU := hU.resolve_left (by rw [hr]; simp)
    simp only [hr, splitMedian] at hs ⊢
    split at hs
    · cases hs
    · rename_i dim hd
      rw [← hlen]
      exact nthSplit_same h hU hs
  | midpoint =>
    simp only [hr, splitMidpoint] at hs ⊢
    split at hs
    · cases hs
    · rename_i dim delta hd
      cases hs
      obtain ⟨h1, h2, h3⟩ := partition_same (S := C.S) (S' := S') (dim := dim)
        (v := C.N.mulHalf delta + box.min dim) h
      exact ⟨_, rfl, h1, rfl, rfl, h2, h3⟩
  | sliding =>
    have hU := hU.resolve_left (by rw [hr]; simp)
    simp only [hr, splitSliding] at hs ⊢
    split at hs
    · cases hs
    · rename_i dim delta hd
      obtain ⟨h1, h2, h3⟩ := partition_same (S := C.S) (S' := S') (dim := dim)
        (v := C.N.divTwo delta + box.min dim) h
      have hp := (C.S.partition_perm (coordBelow C.pts dim (C.N.divTwo delta + box.min dim)) seg)
      have hp' := (S'.partition_perm (coordBelow pts' dim (C.N.divTwo delta + box.min dim)) seg')
      have hpp : (((C.S.partition (coordBelow C.pts dim (C.N.divTwo delta + box.min dim)) seg).1).map C.pts).Perm
          (((S'.partition (coordBelow pts' dim (C.N.divTwo delta + box.min dim)) seg').1).map pts') :=
        ((hp.map _).trans h).trans (hp'.map _).symm
      have hU' : Untied (((C.S.partition (coordBelow C.pts dim (C.N.divTwo delta + box.min dim)) seg).1).map C.pts) :=
        fun x hx y hy => hU x ((hp.map _).subset hx) y ((hp.map _).subset hy)
      have hll : ((S'.partition (coordBelow pts' dim (C.N.divTwo delta + box.min dim)) seg').1).length =
          ((C.S.partition (coordBelow C.pts dim (C.N.divTwo delta + box.min dim)) seg).1).length := by
        rw [hp.length_eq, hp'.length_eq, hlen]
      rw [h1, hll]
      generalize (C.S.partition (coordBelow C.pts dim (C.N.divTwo delta + box.min dim)) seg).2 = k at *
      split_ifs at hs ⊢ with c1 c2
      · cases k with
        | zero => cases hs
        | succ k => exact nthSplit_same hpp hU' hs
      · exact nthSplit_same hpp hU' hs
      · cases hs
        exact ⟨_, rfl, rfl, rfl, rfl, h2, h3⟩

theorem slice_middle {τ : Type} (pre out post : List τ) :
    slice (pre ++ out ++ post) pre.length (pre.length + out.length) = out := by
  unfold slice
  rw [List.append_assoc, List.drop_left, Nat.add_sub_cancel_left, List.take_left]

/-- The leaves hold the same points. -/
def SameLeaves (pts pts' : Nat → Pt α d) (t : Tree β) (ind ind' : List Nat) : Prop :=
  ∀ r ∈ ranges t, ((slice ind r.1 r.2).map pts).Perm ((slice ind' r.1 r.2).map pts')

theorem createNode_same {C : BuildCfg α d β} : ∀ (fuel : Nat) (depth : Int) (o : Nat) (seg seg' : List Nat)
    (box : Box α d) (t : Tree β) (out : List Nat) (b : Box α d), (seg.map C.pts).Perm (seg'.map pts') →
    (C.rule = .midpoint ∨ Untied (seg.map C.pts)) → createNode C fuel depth o seg box = .ok (t, out, b) →
    ∃ out', createNode { C with pts := pts', S := S' } fuel depth o seg' box = .ok (t, out', b) ∧
      out.length = seg.length ∧ out'.length = seg'.length ∧
      ∀ pre pre' post post' : List Nat, pre.length = o → pre'.length = o →
        SameLeaves C.pts pts' t (pre ++ out ++ post) (pre' ++ out' ++ post')
  | 0, _, _, _, _, _, _, _, _, _, _, h => by simp [createNode] at h
  | fuel + 1, depth, o, seg, seg', box, t, out, b, hp, hU, h => by
    have hlen : seg.length = seg'.length := by simpa using hp.length_eq
    have hleaf : isLeaf { C with pts := pts', S := S' } depth seg'.length = isLeaf C depth seg.length := by
      rw [hlen]; rfl
    unfold createNode at h ⊢
    rw [hleaf]
    split at h
    · rename_i hl
      rw [if_pos hl]
      cases h
      have hbox : leafBox { C with pts := pts', S := S' } seg' box = leafBox C seg box := by
        unfold leafBox computeBoundingBox
        simp only
        rw [← foldBox_same hp, hlen]
      refine ⟨seg', by rw [hbox, hlen], rfl, rfl, fun pre pre' post post' e1 e2 r hr => ?_⟩
      rw [ranges_leaf, List.mem_singleton] at hr
      subst hr
      dsimp only
      subst e1
      rw [slice_middle]
      have := slice_middle pre' seg' post'
      rw [e2, ← hlen] at this
      rw [this]
      exact hp
    · rename_i hl
      rw [if_neg hl]
      cases hs : splitter C seg box with
      | ub => simp [hs, Outcome.bind] at h
      | oof => simp [hs, Outcome.bind] at h
      | ok sp =>
        obtain ⟨sp', hs', g⟩ := splitter_same (S' := S') hp hU hs
        rw [hs']
        simp only [hs, Outcome.bind] at h ⊢
        rw [g.pos, g.dim, g.val]
        have hsub : ∀ l, l ⊆ sp.seg → C.rule = .midpoint ∨ Untied (l.map C.pts) := by
          intro l hl'
          refine hU.imp id fun hU => fun x hx y hy => ?_
          have hperm : sp.seg.Perm seg := (splitter_ok hs).1.perm
          have hm : l.map C.pts ⊆ seg.map C.pts := List.map_subset _ fun x hx => hperm.subset (hl' hx)
          exact hU x (hm hx) y (hm hy)
        cases h1 : createNode C fuel (depth + 1) o (sp.seg.take sp.pos) (box.setMax sp.dim sp.val) with
        | ub => simp [h1] at h
        | oof => simp [h1] at h
        | ok resL =>
          obtain ⟨l, outL, bL⟩ := resL
          simp only [h1] at h
          cases h2 : createNode C fuel (depth + 1) (o + sp.pos) (sp.seg.drop sp.pos) (box.setMin sp.dim sp.val) with
          | ub => simp [h2] at h
          | oof => simp [h2] at h
          | ok resR =>
            obtain ⟨r, outR, bR⟩ := resR
            simp only [h2] at h
            cases h
            obtain ⟨outL', k1, k2, k3, k4⟩ := createNode_same fuel _ _ _ _ _ _ _ _ g.left
              (hsub _ (List.take_subset _ _)) h1
            obtain ⟨outR', m1, m2, m3, m4⟩ := createNode_same fuel _ _ _ _ _ _ _ _ g.right
              (hsub _ (List.drop_subset _ _)) h2
            rw [k1]
            simp only
            rw [m1]
            have hpl : sp.seg.length = seg.length := (splitter_ok hs).1.perm.length_eq
            have hpl' : sp'.seg.length = seg'.length := (splitter_ok hs').1.perm.length_eq
            have hposle : sp.pos ≤ sp.seg.length := hpl ▸ (splitter_ok hs).1.pos_le
            have eL : outL.length = sp.pos := by rw [k2, List.length_take, min_eq_left hposle]
            have eL' : outL'.length = sp.pos := by
              rw [k3, List.length_take, min_eq_left (by rw [hpl', ← hlen, ← hpl]; exact hposle)]
            refine ⟨outL' ++ outR', rfl, ?_, ?_, fun pre pre' post post' e1 e2 x hx => ?_⟩
            · rw [List.length_append, eL, m2, List.length_drop]; omega
            · rw [List.length_append, eL', m3, List.length_drop]; omega
            · rw [ranges_branch, List.mem_append] at hx
              rcases hx with hx | hx
              · have := k4 pre pre' (outR ++ post) (outR' ++ post') e1 e2 x hx
                simpa only [List.append_assoc] using this
              · have := m4 (pre ++ outL) (pre' ++ outL') post post' (by rw [List.length_append, e1, eL])
                  (by rw [List.length_append, e2, eL']) x hx
                simpa only [List.append_assoc] using this

end Builder

section Traversal
variable {α : Type} [LinearOrder α] [Add α] [Sub α] {d : Nat} {β σ : Type}

/-- Two traversals of the same nodes with different index lists that see the same bounds go the same way. -/
theorem search_same {splitDim : β → Fin d} {pick : β → Bool × α} {V : Visitor α σ} {dist dist' : Nat → α}
    {ind ind' : List Nat} {s s' : σ} {Q : List Nat → List Nat → Prop}
    (happ : ∀ {a a' b b'}, Q a a' → Q b b' → Q (a ++ b) (a' ++ b'))
    (hmax : ∀ l l', Q l l' → V.max (visitAll V dist l s) = V.max (visitAll V dist' l' s')) (t : Tree β) :
    (∀ r ∈ ranges t, Q (slice ind r.1 r.2) (slice ind' r.1 r.2)) → ∀ (D : α) (off : Pt α d) (w w' : List Nat), Q w w' →
    ∃ off' v v', Q v v' ∧
      searchNearest splitDim pick V dist ind t D (off, visitAll V dist w s) = (off', visitAll V dist v s) ∧
      searchNearest splitDim pick V dist' ind' t D (off, visitAll V dist' w' s') = (off', visitAll V dist' v' s') := by
  induction t with
  | leaf b e =>
    intro hl D off w w' hw
    have h1 := hl (b, e) (by rw [ranges_leaf]; exact List.mem_singleton_self _)
    refine ⟨off, w ++ slice ind b e, w' ++ slice ind' b e, happ hw h1, ?_, ?_⟩
    · simp only [searchNearest, visitAll, List.foldl_append]
    · simp only [searchNearest, visitAll, List.foldl_append]
  | branch data l r ihl ihr =>
    intro hl D off w w' hw
    have hL := ihl fun x hx => hl x (by rw [ranges_branch]; exact List.mem_append_left _ hx)
    have hR := ihr fun x hx => hl x (by rw [ranges_branch]; exact List.mem_append_right _ hx)
    simp only [searchNearest]
    cases (pick data).1 with
    | true =>
      simp only [if_true]
      obtain ⟨o1, v, v', hv, g1, g2⟩ := hL D off w w' hw
      simp only [g1, g2, hmax v v' hv]
      split_ifs with hc
      · obtain ⟨o2, u, u', hu, g3, g4⟩ := hR (D - o1 (splitDim data) + (pick data).2)
          (Function.update o1 (splitDim data) (pick data).2) v v' hv
        exact ⟨_, u, u', hu, by rw [g3], by rw [g4]⟩
      · exact ⟨o1, v, v', hv, rfl, rfl⟩
    | false =>
      simp only [if_false, Bool.false_eq_true]
      obtain ⟨o1, v, v', hv, g1, g2⟩ := hR D off w w' hw
      simp only [g1, g2, hmax v v' hv]
      split_ifs with hc
      · obtain ⟨o2, u, u', hu, g3, g4⟩ := hL (D - o1 (splitDim data) + (pick data).2)
          (Function.update o1 (splitDim data) (pick data).2) v v' hv
        exact ⟨_, u, u', hu, by rw [g3], by rw [g4]⟩
      · exact ⟨o1, v, v', hv, rfl, rfl⟩

end Traversal

end Pico
