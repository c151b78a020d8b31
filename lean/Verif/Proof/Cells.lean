import Verif.Proof.Looked
import Verif.Proof.Shape
import Verif.SpecCell

/-! # Which leaves a Euclidean search opens -/

namespace Pico

open Spec

section
variable {β : Type}

theorem holds_iff (v : List Nat) (t : Tree β) (i : Nat) : Holds v t i ↔ i ∈ t.elems v := by
  induction t with
  | leaf b e => simp [Holds, ranges_leaf, Tree.elems, slice]
  | branch data l r ihl ihr =>
    rw [Tree.elems, List.mem_append, ← ihl, ← ihr]
    simp only [Holds, ranges_branch, List.mem_append]
    constructor
    · rintro ⟨x, h | h, hx⟩
      · exact Or.inl ⟨x, h, hx⟩
      · exact Or.inr ⟨x, h, hx⟩
    · rintro (⟨x, h, hx⟩ | ⟨x, h, hx⟩)
      · exact ⟨x, Or.inl h, hx⟩
      · exact ⟨x, Or.inr h, hx⟩

end

section
variable {α : Type} [Field α] [LinearOrder α] [IsStrictOrderedRing α] {d : Nat} {σ : Type}

/-- The place `e` at which the search enters a node with the box `box`: on every axis the coordinate of the query, or
one between the query and the box. -/
def Entry (q e : Pt α d) (box : Box α d) : Prop :=
  ∀ j, e j = q j ∨ (q j ≤ e j ∧ e j ≤ box.min j) ∨ (e j ≤ q j ∧ box.max j ≤ e j)

/-- What is known about a point that is looked at, `before` are the points before it. -/
def Opened (M : Metric α d) (q : Pt α d) (V : Visitor α σ) (dist : Nat → α) (v : List Nat) (t : Tree (Branch1 α d))
    (box : Box α d) (e : Pt α d) (s : σ) (before : List Nat) (i : Nat) : Prop :=
  ∃ w0, w0 <+: before ∧
    (∃ r ∈ ranges t, i ∈ slice v r.1 r.2 ∧ ∀ k ∈ before.drop w0.length, k ∈ slice v r.1 r.2) ∧
    ∃ y, cell v t i y ∧ (∀ j, y j = e j ∨ (box.min j ≤ y j ∧ y j ≤ box.max j)) ∧
      ((y = e ∧ w0 = []) ∨ ∑ j, M.one (q j - y j) ≤ V.max (visitAll V dist w0 s))

/-- The statement of the induction. -/
def Opens (M : Metric α d) (q : Pt α d) (V : Visitor α σ) (dist : Nat → α) (v : List Nat) (t : Tree (Branch1 α d))
    (box : Box α d) : Prop :=
  ∀ (D : α) (off e : Pt α d) (s : σ) (w : List Nat), Entry q e box → (∀ j, off j = M.one (q j - e j)) →
    D = ∑ j, off j → ∃ vis,
      searchNearest (euclideanTag α d).splitDim ((euclideanTag α d).pick M q) (recording V) dist v t D (off, (s, w)) =
        (off, (visitAll V dist vis s, w ++ vis)) ∧
      (∀ i ∈ vis, i ∈ t.elems v) ∧
      ∀ w1 i w2, vis = w1 ++ i :: w2 → Opened M q V dist v t box e s w1 i

/-- The step for a branch: `tn` is the child that is searched first, `b` the border of the other child `tf`. -/
theorem opens_step {M : Metric α d} {q : Pt α d} {V : Visitor α σ} {dist : Nat → α} {v : List Nat}
    {data : Branch1 α d} {l r tn tf : Tree (Branch1 α d)} {boxN boxF box : Box α d}
    (hrn : ∀ x ∈ ranges tn, x ∈ ranges (.branch data l r)) (hrf : ∀ x ∈ ranges tf, x ∈ ranges (.branch data l r))
    (hen : ∀ x ∈ tn.elems v, x ∈ (Tree.branch data l r).elems v)
    (hef : ∀ x ∈ tf.elems v, x ∈ (Tree.branch data l r).elems v)
    (sideN sideF : α → Prop) (b : α)
    (hN : ∀ i y, i ∈ tn.elems v → sideN (y data.splitDim) → cell v tn i y → cell v (.branch data l r) i y)
    (hF : ∀ i y, i ∈ tf.elems v → sideF (y data.splitDim) → cell v tf i y → cell v (.branch data l r) i y)
    (hsn : ∀ x, boxN.min data.splitDim ≤ x → x ≤ boxN.max data.splitDim → sideN x)
    (hsf : ∀ x, boxF.min data.splitDim ≤ x → x ≤ boxF.max data.splitDim → sideF x)
    (hbn : ∀ j, box.min j ≤ boxN.min j ∧ boxN.max j ≤ box.max j)
    (hbf : ∀ j, box.min j ≤ boxF.min j ∧ boxF.max j ≤ box.max j)
    (hb : boxF.min data.splitDim ≤ b ∧ b ≤ boxF.max data.splitDim)
    (ihn : Opens M q V dist v tn boxN) (ihf : Opens M q V dist v tf boxF)
    (D : α) (off e : Pt α d) (s : σ) (w : List Nat) (hE : Entry q e box) (hoff : ∀ j, off j = M.one (q j - e j))
    (hD : D = ∑ j, off j) (hse : sideN (e data.splitDim))
    (hb' : (q data.splitDim ≤ b ∧ b ≤ boxF.min data.splitDim) ∨ (b ≤ q data.splitDim ∧ boxF.max data.splitDim ≤ b)) :
    ∃ vis,
      (let st1 := searchNearest (euclideanTag α d).splitDim ((euclideanTag α d).pick M q) (recording V) dist v tn D
          (off, (s, w))
       let oldOffset := st1.1 data.splitDim
       let D' := D - oldOffset + M.one (q data.splitDim - b)
       if (recording V).max st1.2 ≥ D' then
        let st' := (Function.update st1.1 data.splitDim (M.one (q data.splitDim - b)), st1.2)
        let st2 := searchNearest (euclideanTag α d).splitDim ((euclideanTag α d).pick M q) (recording V) dist v tf D' st'
        (Function.update st2.1 data.splitDim oldOffset, st2.2)
       else st1) = (off, (visitAll V dist vis s, w ++ vis)) ∧
      (∀ i ∈ vis, i ∈ (Tree.branch data l r).elems v) ∧
      ∀ w1 i w2, vis = w1 ++ i :: w2 → Opened M q V dist v (.branch data l r) box e s w1 i := by
  have hmono : ∀ (b1 b2 : Box α d), (∀ j, b2.min j ≤ b1.min j ∧ b1.max j ≤ b2.max j) → Entry q e b2 → Entry q e b1 := by
    intro b1 b2 h hE j
    rcases hE j with h1 | ⟨h1, h2⟩ | ⟨h1, h2⟩
    · exact Or.inl h1
    · exact Or.inr (Or.inl ⟨h1, h2.trans (h j).1⟩)
    · exact Or.inr (Or.inr ⟨h1, (h j).2.trans h2⟩)
  obtain ⟨v1, he1, hm1, ho1⟩ := ihn D off e s w (hmono _ _ hbn hE) hoff hD
  dsimp only
  rw [he1]
  dsimp only
  have hnear : ∀ w1 i w2, v1 = w1 ++ i :: w2 → Opened M q V dist v (.branch data l r) box e s w1 i := by
    intro w1 i w2 h
    have hi : i ∈ tn.elems v := hm1 i (by rw [h]; simp)
    obtain ⟨w0, h1, ⟨x, hx, h2, h3⟩, y, hy1, hy2, hy3⟩ := ho1 w1 i w2 h
    refine ⟨w0, h1, ⟨x, hrn x hx, h2, h3⟩, y, hN i y hi ?_ hy1, fun j => ?_, hy3⟩
    · rcases hy2 data.splitDim with h | ⟨h, h'⟩
      · rw [h]; exact hse
      · exact hsn _ h h'
    · rcases hy2 j with h | ⟨h, h'⟩
      · exact Or.inl h
      · exact Or.inr ⟨(hbn j).1.trans h, h'.trans (hbn j).2⟩
  have hmax : (recording V).max (visitAll V dist v1 s, w ++ v1) = V.max (visitAll V dist v1 s) := rfl
  rw [hmax]
  by_cases hc : V.max (visitAll V dist v1 s) ≥ D - off data.splitDim + M.one (q data.splitDim - b)
  · rw [if_pos hc]
    have hE' : Entry q (Function.update e data.splitDim b) boxF := by
      intro j
      by_cases hj : j = data.splitDim
      · subst hj
        rw [Function.update_self]
        exact Or.inr hb'
      · rw [Function.update_of_ne hj]
        exact hmono _ _ hbf hE j
    have hoff' : ∀ j, Function.update off data.splitDim (M.one (q data.splitDim - b)) j =
        M.one (q j - Function.update e data.splitDim b j) := by
      intro j
      by_cases hj : j = data.splitDim
      · subst hj
        rw [Function.update_self, Function.update_self]
      · rw [Function.update_of_ne hj, Function.update_of_ne hj, hoff]
    have hD' := sum_step D off data.splitDim (M.one (q data.splitDim - b)) hD
    obtain ⟨v2, he2, hm2, ho2⟩ := ihf _ _ _ (visitAll V dist v1 s) (w ++ v1) hE' hoff' hD'
    refine ⟨v1 ++ v2, ?_, ?_, ?_⟩
    · rw [he2]
      dsimp only
      rw [visitAll_append, List.append_assoc]
      simp
    · intro i hi
      exact (List.mem_append.1 hi).elim (fun h => hen i (hm1 i h)) fun h => hef i (hm2 i h)
    · intro w1 i w2 h
      rcases List.append_eq_append_iff.1 h with ⟨a, ha, hb2⟩ | ⟨c, hc1, hc2⟩
      · -- `w1 = v1 ++ a`
        have hi : i ∈ tf.elems v := hm2 i (by rw [hb2]; simp)
        obtain ⟨w0, h1, ⟨x, hx, h2, h3⟩, y, hy1, hy2, hy3⟩ := ho2 a i w2 hb2
        refine ⟨v1 ++ w0, ?_, ⟨x, hrf x hx, h2, ?_⟩, y, hF i y hi ?_ hy1, fun j => ?_, Or.inr ?_⟩
        · rw [ha]; exact (List.prefix_append_right_inj v1).2 h1
        · intro k hk
          rw [ha, List.length_append, List.drop_append] at hk
          simp only [List.drop_eq_nil_of_le (Nat.le_add_right _ _), List.nil_append, Nat.add_sub_cancel_left] at hk
          exact h3 k hk
        · rcases hy2 data.splitDim with h | ⟨h, h'⟩
          · rw [h, Function.update_self]; exact hsf _ hb.1 hb.2
          · exact hsf _ h h'
        · rcases hy2 j with h | ⟨h, h'⟩
          · by_cases hj : j = data.splitDim
            · subst hj
              rw [h, Function.update_self]
              exact Or.inr ⟨(hbf _).1.trans hb.1, hb.2.trans (hbf _).2⟩
            · rw [h, Function.update_of_ne hj]
              exact Or.inl rfl
          · exact Or.inr ⟨(hbf j).1.trans h, h'.trans (hbf j).2⟩
        · rcases hy3 with ⟨rfl, rfl⟩ | hy3
          · rw [List.append_nil]
            refine le_trans (le_of_eq ?_) hc
            rw [hD']
            exact Finset.sum_congr rfl fun j _ => (hoff' j).symm
          · rw [visitAll_append]; exact hy3
      · cases c with
        | nil =>
          simp only [List.append_nil] at hc1
          simp only [List.nil_append] at hc2
          subst hc1
          have hi : i ∈ tf.elems v := hm2 i (by rw [← hc2]; simp)
          obtain ⟨w0, h1, ⟨x, hx, h2, h3⟩, y, hy1, hy2, hy3⟩ := ho2 [] i w2 (by simpa using hc2.symm)
          rw [List.prefix_nil] at h1
          subst h1
          refine ⟨v1, List.prefix_rfl, ⟨x, hrf x hx, h2, by simp⟩, y, hF i y hi ?_ hy1, fun j => ?_, Or.inr ?_⟩
          · rcases hy2 data.splitDim with h | ⟨h, h'⟩
            · rw [h, Function.update_self]; exact hsf _ hb.1 hb.2
            · exact hsf _ h h'
          · rcases hy2 j with h | ⟨h, h'⟩
            · by_cases hj : j = data.splitDim
              · subst hj
                rw [h, Function.update_self]
                exact Or.inr ⟨(hbf _).1.trans hb.1, hb.2.trans (hbf _).2⟩
              · rw [h, Function.update_of_ne hj]
                exact Or.inl rfl
            · exact Or.inr ⟨(hbf j).1.trans h, h'.trans (hbf j).2⟩
          · rcases hy3 with ⟨rfl, -⟩ | hy3
            · refine le_trans (le_of_eq ?_) hc
              rw [hD']
              exact Finset.sum_congr rfl fun j _ => (hoff' j).symm
            · exact hy3
        | cons c0 c =>
          simp only [List.cons_append, List.cons.injEq] at hc2
          obtain ⟨rfl, -⟩ := hc2
          exact hnear w1 i c hc1
  · rw [if_neg hc]
    exact ⟨v1, rfl, fun i hi => hen i (hm1 i hi), hnear⟩

omit [IsStrictOrderedRing α] in
theorem EuclideanAdditive.even {M : Metric α d} (hM : EuclideanAdditive M) (x y : α) : M.one (x - y) = M.one (y - x) :=
  le_antisymm (hM.one_mono _ _ (abs_sub_comm x y).le) (hM.one_mono _ _ (abs_sub_comm x y).ge)

theorem built_opens {M : Metric α d} (hM : EuclideanAdditive M) {q : Pt α d} {V : Visitor α σ} {dist : Nat → α}
    {pts : Nat → Pt α d} {o : Nat} {t : Tree (Branch1 α d)} {seg : List Nat} {box : Box α d}
    (h : Built pts setBranchEuclidean o t seg box) (pre post : List Nat) (ho : o = pre.length)
    (hnd : (pre ++ (seg ++ post)).Nodup) (hne : ∀ r ∈ ranges t, r.1 < r.2) :
    Opens M q V dist (pre ++ (seg ++ post)) t box ∧ ∀ j, box.min j ≤ box.max j := by
  induction h generalizing pre post with
  | @leaf o seg box hb =>
    constructor
    · intro D off e s w _ _ _
      have hs : slice (pre ++ (seg ++ post)) o (o + seg.length) = seg := by subst ho; exact slice_append _ _ _
      refine ⟨seg, ?_, ?_, ?_⟩
      · rw [searchNearest, hs, visitAll_recording]
      · intro i hi
        rw [Tree.elems, hs]
        exact hi
      · intro w1 i w2 hw
        refine ⟨[], List.nil_prefix, ⟨(o, o + seg.length), by simp [ranges_leaf], ?_, ?_⟩, e, trivial,
          fun j => Or.inl rfl, Or.inl ⟨rfl, rfl⟩⟩
        · rw [hs, hw]; simp
        · intro k hk
          rw [hs, hw]
          simp only [List.length_nil, List.drop_zero] at hk
          simp [hk]
    · intro j
      have h0 := hne (o, o + seg.length) (by simp [ranges_leaf])
      obtain ⟨i, hi⟩ := List.exists_mem_of_length_pos (show 0 < seg.length by simpa using h0)
      exact (hb i hi j).1.trans (hb i hi j).2
  | @branch o l r segL segR boxL boxR dim hl hr hlr ih1 ih2 =>
    have hel := hl.elems_eq pre (segR ++ post) ho
    have her := hr.elems_eq (pre ++ segL) post (by simp [ho])
    have g1 := ih1 pre (segR ++ post) ho (by simpa using hnd) fun x hx => hne x (by simp [ranges_branch, hx])
    have g2 := ih2 (pre ++ segL) post (by simp [ho]) (by simpa using hnd) fun x hx =>
      hne x (by simp [ranges_branch, hx])
    simp only [List.append_assoc] at hel her g1 g2 hnd ⊢
    obtain ⟨g1, hb1⟩ := g1
    obtain ⟨g2, hb2⟩ := g2
    have hdis : ∀ i, i ∈ segL → i ∈ segR → False := by
      intro i hi1 hi2
      have := (List.nodup_append.1 (List.nodup_append.1 hnd).2.1).2.2 i hi1 i (List.mem_append_left _ hi2)
      exact this rfl
    have hbl : ∀ j, (boxL.fitBox boxR).min j ≤ boxL.min j ∧ boxL.max j ≤ (boxL.fitBox boxR).max j := fun j => by
      rw [Box.fitBox_min, Box.fitBox_max]
      exact ⟨min_le_left _ _, le_max_left _ _⟩
    have hbr : ∀ j, (boxL.fitBox boxR).min j ≤ boxR.min j ∧ boxR.max j ≤ (boxL.fitBox boxR).max j := fun j => by
      rw [Box.fitBox_min, Box.fitBox_max]
      exact ⟨min_le_right _ _, le_max_right _ _⟩
    refine ⟨?_, fun j => (hbl j).1.trans ((hb1 j).trans (hbl j).2)⟩
    have hcl : ∀ i y, i ∈ l.elems (pre ++ (segL ++ (segR ++ post))) →
        2 * y dim ≤ boxL.max dim + boxR.min dim → cell (pre ++ (segL ++ (segR ++ post))) l i y →
        cell (pre ++ (segL ++ (segR ++ post))) (.branch (setBranchEuclidean boxL boxR dim) l r) i y := by
      intro i y hi h1 h2
      refine ⟨fun _ => ⟨h1, h2⟩, fun h3 => ?_⟩
      rw [holds_iff, her] at h3
      rw [hel] at hi
      exact (hdis i hi h3).elim
    have hcr : ∀ i y, i ∈ r.elems (pre ++ (segL ++ (segR ++ post))) →
        boxL.max dim + boxR.min dim ≤ 2 * y dim → cell (pre ++ (segL ++ (segR ++ post))) r i y →
        cell (pre ++ (segL ++ (segR ++ post))) (.branch (setBranchEuclidean boxL boxR dim) l r) i y := by
      intro i y hi h1 h2
      refine ⟨fun h3 => ?_, fun _ => ⟨h1, h2⟩⟩
      rw [holds_iff, hel] at h3
      rw [her] at hi
      exact (hdis i h3 hi).elim
    have hsl : ∀ x, boxL.min dim ≤ x → x ≤ boxL.max dim → 2 * x ≤ boxL.max dim + boxR.min dim := by
      intro x _ h; linarith
    have hsr : ∀ x, boxR.min dim ≤ x → x ≤ boxR.max dim → boxL.max dim + boxR.min dim ≤ 2 * x := by
      intro x h _; linarith
    have hrl : ∀ x ∈ ranges l, x ∈ ranges (.branch (setBranchEuclidean boxL boxR dim) l r) := fun x hx => by
      simp [ranges_branch, hx]
    have hrr : ∀ x ∈ ranges r, x ∈ ranges (.branch (setBranchEuclidean boxL boxR dim) l r) := fun x hx => by
      simp [ranges_branch, hx]
    have hml : ∀ x ∈ l.elems (pre ++ (segL ++ (segR ++ post))),
        x ∈ (Tree.branch (setBranchEuclidean boxL boxR dim) l r).elems (pre ++ (segL ++ (segR ++ post))) :=
      fun x hx => by rw [Tree.elems]; exact List.mem_append_left _ hx
    have hmr : ∀ x ∈ r.elems (pre ++ (segL ++ (segR ++ post))),
        x ∈ (Tree.branch (setBranchEuclidean boxL boxR dim) l r).elems (pre ++ (segL ++ (segR ++ post))) :=
      fun x hx => by rw [Tree.elems]; exact List.mem_append_right _ hx
    intro D off e s w hE hoff hD
    by_cases hc : boxL.max dim + boxR.min dim - q dim - q dim > 0
    · have hp : (euclideanTag α d).pick M q (setBranchEuclidean boxL boxR dim) =
          (true, M.one (q dim - boxR.min dim)) := by
        simp only [euclideanTag, pickEuclidean, setBranchEuclidean, if_pos hc]
        rw [hM.even]
      rw [searchNearest, hp]
      simp only [if_true]
      refine opens_step hrl hrr hml hmr _ _ (boxR.min dim) hcl hcr hsl hsr hbl hbr ⟨le_rfl, hb2 dim⟩ g1 g2 D off e s w
        hE hoff hD ?_ (Or.inl ⟨?_, le_rfl⟩)
      · rcases hE dim with h | ⟨-, h⟩ | ⟨h, -⟩
        · simp only [setBranchEuclidean]; rw [h]; linarith
        · have := h.trans (hbl dim).1
          have := hb1 dim
          simp only [setBranchEuclidean]; linarith
        · simp only [setBranchEuclidean]; linarith
      · simp only [setBranchEuclidean]; linarith
    · have hp : (euclideanTag α d).pick M q (setBranchEuclidean boxL boxR dim) =
          (false, M.one (q dim - boxL.max dim)) := by
        simp only [euclideanTag, pickEuclidean, setBranchEuclidean, if_neg hc]
        rw [hM.even]
      rw [searchNearest, hp]
      simp only [Bool.false_eq_true, if_false]
      refine opens_step hrr hrl hmr hml _ _ (boxL.max dim) hcr hcl hsr hsl hbr hbl ⟨hb1 dim, le_rfl⟩ g2 g1 D off e s w
        hE hoff hD ?_ (Or.inr ⟨?_, le_rfl⟩)
      · rcases hE dim with h | ⟨h, -⟩ | ⟨-, h⟩
        · simp only [setBranchEuclidean]; rw [h]; linarith
        · simp only [setBranchEuclidean]; linarith
        · have := (hbr dim).2.trans h
          have := hb2 dim
          simp only [setBranchEuclidean]; linarith
      · simp only [setBranchEuclidean]; linarith

/-- As long as `max()` is not less than the distance to a place of the tight cell of a point, the point is looked at. -/
def Reaches (M : Metric α d) (q : Pt α d) (V : Visitor α σ) (dist : Nat → α) (v : List Nat) (y : Pt α d) (i : Nat)
    (ρ : α) (t : Tree (Branch1 α d)) : Prop :=
  ∀ (D : α) (off : Pt α d) (s : σ) (w : List Nat), D = ∑ j, off j → ∃ vis,
    searchNearest (euclideanTag α d).splitDim ((euclideanTag α d).pick M q) (recording V) dist v t D (off, (s, w)) =
      (off, (visitAll V dist vis s, w ++ vis)) ∧
    (i ∈ t.elems v → tightCell v t i y → (∀ j, off j ≤ M.one (q j - y j)) →
      (∀ w, w <+: vis → ρ ≤ V.max (visitAll V dist w s)) → i ∈ vis)

theorem reaches_step {M : Metric α d} {q : Pt α d} {V : Visitor α σ} {dist : Nat → α} {v : List Nat} {y : Pt α d}
    {i : Nat} {ρ : α} (hρ : ∑ j, M.one (q j - y j) ≤ ρ) {data : Branch1 α d} {l r tn tf : Tree (Branch1 α d)}
    (ihn : Reaches M q V dist v y i ρ tn) (ihf : Reaches M q V dist v y i ρ tf) (x : α)
    (hor : i ∈ (Tree.branch data l r).elems v → i ∈ tn.elems v ∨ i ∈ tf.elems v)
    (hcn : i ∈ tn.elems v → tightCell v (.branch data l r) i y → tightCell v tn i y)
    (hcf : i ∈ tf.elems v → tightCell v (.branch data l r) i y → tightCell v tf i y)
    (hx : i ∈ tf.elems v → tightCell v (.branch data l r) i y → x ≤ M.one (q data.splitDim - y data.splitDim))
    (D : α) (off : Pt α d) (s : σ) (w : List Nat) (hD : D = ∑ j, off j) :
    ∃ vis,
      (let st1 := searchNearest (euclideanTag α d).splitDim ((euclideanTag α d).pick M q) (recording V) dist v tn D
          (off, (s, w))
       let oldOffset := st1.1 data.splitDim
       let D' := D - oldOffset + x
       if (recording V).max st1.2 ≥ D' then
        let st' := (Function.update st1.1 data.splitDim x, st1.2)
        let st2 := searchNearest (euclideanTag α d).splitDim ((euclideanTag α d).pick M q) (recording V) dist v tf D' st'
        (Function.update st2.1 data.splitDim oldOffset, st2.2)
       else st1) = (off, (visitAll V dist vis s, w ++ vis)) ∧
      (i ∈ (Tree.branch data l r).elems v → tightCell v (.branch data l r) i y → (∀ j, off j ≤ M.one (q j - y j)) →
        (∀ w, w <+: vis → ρ ≤ V.max (visitAll V dist w s)) → i ∈ vis) := by
  obtain ⟨v1, he1, ho1⟩ := ihn D off s w hD
  dsimp only
  rw [he1]
  dsimp only
  have hmax : (recording V).max (visitAll V dist v1 s, w ++ v1) = V.max (visitAll V dist v1 s) := rfl
  rw [hmax]
  have hD' := sum_step D off data.splitDim x hD
  have hoff' : i ∈ tf.elems v → tightCell v (.branch data l r) i y → (∀ j, off j ≤ M.one (q j - y j)) →
      ∀ j, Function.update off data.splitDim x j ≤ M.one (q j - y j) := by
    intro h hcell hoff j
    by_cases hj : j = data.splitDim
    · subst hj
      rw [Function.update_self]
      exact hx h hcell
    · rw [Function.update_of_ne hj]
      exact hoff j
  by_cases hc : V.max (visitAll V dist v1 s) ≥ D - off data.splitDim + x
  · rw [if_pos hc]
    obtain ⟨v2, he2, ho2⟩ := ihf _ _ (visitAll V dist v1 s) (w ++ v1) hD'
    refine ⟨v1 ++ v2, ?_, fun hi hcell hoff hpre => ?_⟩
    · rw [he2]
      dsimp only
      rw [visitAll_append, List.append_assoc]
      simp
    · rcases hor hi with h | h
      · exact List.mem_append_left _
          (ho1 h (hcn h hcell) hoff fun w hw => hpre w (hw.trans (List.prefix_append _ _)))
      · refine List.mem_append_right _ (ho2 h (hcf h hcell) (hoff' h hcell hoff) fun w hw => ?_)
        have := hpre (v1 ++ w) ((List.prefix_append_right_inj v1).2 hw)
        rwa [visitAll_append] at this
  · rw [if_neg hc]
    refine ⟨v1, rfl, fun hi hcell hoff hpre => ?_⟩
    rcases hor hi with h | h
    · exact ho1 h (hcn h hcell) hoff hpre
    · refine absurd ?_ hc
      calc D - off data.splitDim + x = ∑ j, Function.update off data.splitDim x j := hD'
        _ ≤ ∑ j, M.one (q j - y j) := Finset.sum_le_sum fun j _ => hoff' h hcell hoff j
        _ ≤ ρ := hρ
        _ ≤ _ := hpre v1 List.prefix_rfl

theorem built_reaches {M : Metric α d} (hM : EuclideanAdditive M) {q : Pt α d} {V : Visitor α σ} {dist : Nat → α}
    {pts : Nat → Pt α d} {o : Nat} {t : Tree (Branch1 α d)} {seg : List Nat} {box : Box α d}
    (h : Built pts setBranchEuclidean o t seg box) (v : List Nat) (y : Pt α d) (i : Nat) (ρ : α)
    (hρ : ∑ j, M.one (q j - y j) ≤ ρ) : Reaches M q V dist v y i ρ t := by
  induction h with
  | @leaf o seg box hb =>
    intro D off s w _
    refine ⟨slice v o (o + seg.length), ?_, fun hi _ _ _ => hi⟩
    rw [searchNearest, visitAll_recording]
  | @branch o l r segL segR boxL boxR dim hl hr hlr ih1 ih2 =>
    intro D off s w hD
    have hor : i ∈ (Tree.branch (setBranchEuclidean boxL boxR dim) l r).elems v → i ∈ l.elems v ∨ i ∈ r.elems v := by
      rw [Tree.elems]
      exact List.mem_append.1
    have hcl : i ∈ l.elems v → tightCell v (.branch (setBranchEuclidean boxL boxR dim) l r) i y →
        y dim ≤ boxL.max dim ∧ tightCell v l i y := fun hi hc => hc.1 ((holds_iff _ _ _).2 hi)
    have hcr : i ∈ r.elems v → tightCell v (.branch (setBranchEuclidean boxL boxR dim) l r) i y →
        boxR.min dim ≤ y dim ∧ tightCell v r i y := fun hi hc => hc.2 ((holds_iff _ _ _).2 hi)
    by_cases hc : boxL.max dim + boxR.min dim - q dim - q dim > 0
    · have hp : (euclideanTag α d).pick M q (setBranchEuclidean boxL boxR dim) =
          (true, M.one (boxR.min dim - q dim)) := by
        simp only [euclideanTag, pickEuclidean, setBranchEuclidean, if_pos hc]
      rw [searchNearest, hp]
      simp only [if_true]
      refine reaches_step hρ ih1 ih2 _ hor (fun h1 h2 => (hcl h1 h2).2) (fun h1 h2 => (hcr h1 h2).2)
        (fun h1 h2 => hM.one_mono _ _ ?_) D off s w hD
      have := (hcr h1 h2).1
      simp only [setBranchEuclidean]
      rw [abs_of_nonneg (by linarith), abs_of_nonpos (by linarith)]
      linarith
    · have hp : (euclideanTag α d).pick M q (setBranchEuclidean boxL boxR dim) =
          (false, M.one (boxL.max dim - q dim)) := by
        simp only [euclideanTag, pickEuclidean, setBranchEuclidean, if_neg hc]
      rw [searchNearest, hp]
      simp only [Bool.false_eq_true, if_false]
      refine reaches_step hρ ih2 ih1 _ (fun h => (hor h).symm) (fun h1 h2 => (hcr h1 h2).2) (fun h1 h2 => (hcl h1 h2).2)
        (fun h1 h2 => hM.one_mono _ _ ?_) D off s w hD
      have := (hcl h1 h2).1
      simp only [setBranchEuclidean]
      rw [abs_of_nonpos (by linarith), abs_of_nonneg (by linarith)]
      linarith

end

end Pico
