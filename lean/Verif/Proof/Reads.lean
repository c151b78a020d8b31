import Verif.Model.Reads
import Verif.Proof.Shape

/-!
# Reads inside of the objects
-/

set_option linter.unusedSectionVars false

namespace Pico

open Spec

@[simp] theorem Outcome.bind_ok {τ υ : Type} (a : τ) (f : τ → Outcome υ) : (Outcome.ok a).bind f = f a := rfl

@[simp] theorem Outcome.bind_ub {τ υ : Type} (f : τ → Outcome υ) : (Outcome.ub : Outcome τ).bind f = .ub := rfl

theorem rd_of_lt {τ : Type} {l : List τ} {i : Nat} (h : i < l.length) : rd l i = .ok l[i] := by
  unfold rd; rw [List.getElem?_eq_getElem h]

theorem rd_of_le {τ : Type} {l : List τ} {i : Nat} (h : l.length ≤ i) : rd l i = .ub := by
  unfold rd; rw [List.getElem?_eq_none h]

theorem rd_ofFn {α : Type} {d : Nat} (x : Pt α d) (j : Fin d) : rd (List.ofFn x) j = .ok (x j) := by
  rw [rd_of_lt (by simp)]; simp

theorem ptr_fin {α : Type} {d : Nat} (x : Pt α d) (j : Fin d) : ptr x j = .ok (x j) := by
  unfold ptr; rw [dif_pos j.2]

section
variable {α : Type}

theorem iterFold_ofFn (op : α → α → α → α) {d : Nat} (x : Pt α d) (y : Pt α d) (p : Reader α)
    (hp : ∀ j : Fin d, p j = .ok (y j)) (acc : α) :
    iterFold op acc (List.ofFn x) p = .ok ((List.finRange d).foldl (fun acc i => op acc (x i) (y i)) acc) := by
  induction d generalizing acc p with
  | zero => simp [iterFold]
  | succ d ih =>
    rw [List.ofFn_succ, List.finRange_succ, iterFold, List.foldl_cons, List.foldl_map]
    have h0 := hp 0
    simp only [Fin.val_zero] at h0
    rw [h0, Outcome.bind_ok]
    exact ih (fun i => x i.succ) (fun i => y i.succ) _ (fun j => by simpa using hp j.succ) _

/-- A read outside of the point is undefined. -/
theorem iterFold_ub (op : α → α → α → α) (x : List α) (p : Reader α) (hp : ∀ j, p j ≠ .oof) (acc : α) {j : Nat}
    (hj : j < x.length) (hu : p j = .ub) : iterFold op acc x p = .ub := by
  induction x generalizing acc p j with
  | nil => exact absurd hj (by simp)
  | cons a x ih =>
    rw [iterFold]
    cases h0 : p 0 with
    | ub => rfl
    | oof => exact absurd h0 (hp 0)
    | ok y =>
      rw [Outcome.bind_ok]
      cases j with
      | zero => rw [hu] at h0; cases h0
      | succ j =>
        refine ih _ (fun j => hp (j + 1)) _ (j := j) ?_ hu
        simpa using hj

theorem loopAll_range {d : Nat} (f : Nat → Outcome Bool) (g : Fin d → Bool) (h : ∀ j : Fin d, f j = .ok (g j)) :
    loopAll f (List.range d) = .ok ((List.finRange d).all g) := by
  have key : ∀ l : List (Fin d), loopAll f (l.map Fin.val) = .ok (l.all g) := by
    intro l
    induction l with
    | nil => rfl
    | cons j l ih =>
      rw [List.map_cons, loopAll, h j, Outcome.bind_ok, List.all_cons]
      cases g j
      · rfl
      · simpa using ih
  have hr : (List.finRange d).map Fin.val = List.range d := by simp
  rw [← hr]
  exact key _

end

section Slices
variable {τ : Type}

theorem sliceC_ok {l : List τ} {b e : Nat} (hb : b ≤ l.length) (he : e ≤ l.length) : sliceC l b e = .ok (slice l b e) :=
  if_pos ⟨hb, he⟩

theorem sliceCopy_ok {l : List τ} {b e : Nat} (hb : b ≤ e) (he : e ≤ l.length) :
    sliceCopy l b e = .ok (slice l b e) := by
  unfold sliceCopy
  rw [if_pos hb, sliceC_ok (hb.trans he) he]

theorem mem_slice_reads {l : List τ} {b e : Nat} {x : τ} (h : x ∈ slice l b e) : x ∈ l :=
  List.mem_of_mem_drop (List.mem_of_mem_take h)

end Slices

section Nearest
variable {α : Type} [LT α] [LE α] [DecidableLT α] [DecidableLE α] [Zero α] [Add α] [Sub α] {d : Nat} {β σ : Type}

theorem visitAllC_eq (V : Visitor α σ) {dist : Nat → Outcome α} {dist' : Nat → α} {l : List Nat}
    (h : ∀ i ∈ l, dist i = .ok (dist' i)) (s : σ) : visitAllC V dist l s = .ok (visitAll V dist' l s) := by
  induction l generalizing s with
  | nil => rfl
  | cons i l ih =>
    rw [visitAllC, h i (by simp), Outcome.bind_ok, ih (fun j hj => h j (by simp [hj]))]
    rfl

/-- The search with checked reads is the search, as far as all reads that can occur are inside. -/
theorem searchNearestC_eq {splitDim : β → Fin d} {pick : α → β → Bool × α} {pick' : β → Bool × α} (V : Visitor α σ)
    {q : Reader α} {dist : Nat → Outcome α} {dist' : Nat → α} {indices : List Nat}
    (hd : ∀ i ∈ indices, dist i = .ok (dist' i)) (hq : ∀ b, ∃ v, q (splitDim b) = .ok v ∧ pick v b = pick' b)
    (t : Tree β) (ht : ∀ r ∈ ranges t, r.1 ≤ indices.length ∧ r.2 ≤ indices.length) (w : α) (st : Pt α d × σ) :
    searchNearestC splitDim pick V q dist indices t w st =
      .ok (searchNearest splitDim pick' V dist' indices t w st) := by
  induction t generalizing w st with
  | leaf b e =>
    have := ht (b, e) (by simp [ranges, leaves, leavesFrom])
    rw [searchNearestC, sliceC_ok this.1 this.2, Outcome.bind_ok,
      visitAllC_eq V (fun i hi => hd i (mem_slice_reads hi)) st.2]
    rfl
  | branch data l r ihl ihr =>
    rw [ranges_branch] at ht
    have hl := ihl fun r hr => ht r (List.mem_append_left _ hr)
    have hr := ihr fun r hr => ht r (List.mem_append_right _ hr)
    obtain ⟨v, hv, hp⟩ := hq data
    rw [searchNearestC, searchNearest, hv, Outcome.bind_ok, hp]
    simp only [hl, hr]
    cases hb : (pick' data).1
    · simp only [Bool.false_eq_true, if_false, Outcome.bind_ok]
      split <;> rfl
    · simp only [if_true, Outcome.bind_ok]
      split <;> rfl

/-- If no distance can be computed and the first leaf is not empty, the search is undefined. -/
theorem searchNearestC_ub {splitDim : β → Fin d} {pick : α → β → Bool × α} (V : Visitor α σ)
    {q : Reader α} {dist : Nat → Outcome α} {indices : List Nat}
    (hd : ∀ i ∈ indices, dist i = .ub) (hq : ∀ j : Fin d, ∃ v, q j = .ok v)
    (t : Tree β) (ht : ∀ r ∈ ranges t, r.1 < r.2) (w : α) (st : Pt α d × σ) :
    searchNearestC splitDim pick V q dist indices t w st = .ub := by
  induction t generalizing w st with
  | leaf b e =>
    have h1 := ht (b, e) (by simp [ranges, leaves, leavesFrom])
    rw [searchNearestC]
    unfold sliceC
    split
    · rename_i h2
      rw [Outcome.bind_ok]
      have hne : slice indices b e ≠ [] := by
        intro h
        have := congrArg List.length h
        simp only [slice, List.length_take, List.length_drop, List.length_nil] at this
        simp only at h1 h2
        omega
      cases hs : slice indices b e with
      | nil => exact absurd hs hne
      | cons i l =>
        rw [visitAllC, hd i (mem_slice_reads (b := b) (e := e) (by rw [hs]; simp))]
        rfl
    · rfl
  | branch data l r ihl ihr =>
    rw [ranges_branch] at ht
    have hl := ihl fun r hr => ht r (List.mem_append_left _ hr)
    have hr := ihr fun r hr => ht r (List.mem_append_right _ hr)
    obtain ⟨v, hv⟩ := hq (splitDim data)
    rw [searchNearestC, hv, Outcome.bind_ok]
    simp only [hl, hr]
    simp

end Nearest

section Boxes
variable {α : Type} {d : Nat} {β : Type}

theorem filterC_eq {f : Nat → Outcome Bool} {g : Nat → Bool} {l : List Nat} (h : ∀ i ∈ l, f i = .ok (g i))
    (idxs : List Nat) : filterC f l idxs = .ok (idxs ++ l.filter g) := by
  induction l generalizing idxs with
  | nil => simp [filterC]
  | cons i l ih =>
    rw [filterC, h i (by simp), Outcome.bind_ok, ih (fun j hj => h j (by simp [hj]))]
    cases hg : g i <;> simp [hg]

theorem tiles_split {a b : Nat} {l m : List (Nat × Nat)} (h : Tiles a (l ++ m) b) :
    ∃ c, Tiles a l c ∧ Tiles c m b := by
  induction l generalizing a with
  | nil => exact ⟨a, rfl, h⟩
  | cons x l ih =>
    obtain ⟨x, y⟩ := x
    obtain ⟨h1, h2, h3⟩ := h
    obtain ⟨c, h4, h5⟩ := ih h3
    exact ⟨c, ⟨h1, h2, h4⟩, h5⟩

theorem reportLeft_eq {t : Tree β} {a b : Nat} (h : Tiles a (ranges t) b) : reportLeft t = a := by
  induction t generalizing a b with
  | leaf x y => exact h.1
  | branch data l r ihl ihr =>
    rw [ranges_branch] at h
    obtain ⟨c, h1, -⟩ := tiles_split h
    exact ihl h1

theorem reportRight_eq {t : Tree β} {a b : Nat} (h : Tiles a (ranges t) b) : reportRight t = b := by
  induction t generalizing a b with
  | leaf x y => exact h.2.2
  | branch data l r ihl ihr =>
    rw [ranges_branch] at h
    obtain ⟨c, -, h1⟩ := tiles_split h
    exact ihr h1

theorem reportNodeC_eq {t : Tree β} {a b : Nat} (h : Tiles a (ranges t) b) {indices : List Nat}
    (hb : b ≤ indices.length) (idxs : List Nat) : reportNodeC indices t idxs = .ok (reportNode indices t idxs) := by
  have hab := tiles_le h
  cases t with
  | leaf x y =>
    obtain ⟨h1, h2, h3⟩ := h
    rw [reportNodeC, sliceCopy_ok h2 (by have : y = b := h3; omega)]
    rfl
  | branch data l r =>
    rw [ranges_branch] at h
    obtain ⟨c, h1, h2⟩ := tiles_split h
    rw [reportNodeC, sliceCopy_ok (by rw [reportLeft_eq h1, reportRight_eq h2]; exact hab)
      (by rw [reportRight_eq h2]; exact hb)]
    rfl

theorem searchBoxC_eq {splitDim : β → Fin d} {leftMax rightMin : β → α} {containsPt : Nat → Outcome Bool}
    {containsPt' : Nat → Bool} {containsBox : Box α d → Outcome Bool} {containsBox' : Box α d → Bool}
    {iL iR : β → Outcome Bool} {iL' iR' : β → Bool} {indices : List Nat}
    (h1 : ∀ i ∈ indices, containsPt i = .ok (containsPt' i)) (h2 : ∀ b, containsBox b = .ok (containsBox' b))
    (h3 : ∀ b, iL b = .ok (iL' b)) (h4 : ∀ b, iR b = .ok (iR' b)) (t : Tree β) {a b : Nat}
    (ht : Tiles a (ranges t) b) (hb : b ≤ indices.length) (st : Box α d × List Nat) :
    searchBoxC splitDim leftMax rightMin containsPt containsBox iL iR indices t st =
      .ok (searchBox splitDim leftMax rightMin containsPt' containsBox' iL' iR' indices t st) := by
  induction t generalizing a b st with
  | leaf x y =>
    obtain ⟨g1, g2, g3⟩ := ht
    have g3 : y = b := g3
    rw [searchBoxC, sliceC_ok (by omega) (by omega), Outcome.bind_ok,
      filterC_eq (fun i hi => h1 i (mem_slice_reads hi))]
    rfl
  | branch data l r ihl ihr =>
    rw [ranges_branch] at ht
    obtain ⟨c, g1, g2⟩ := tiles_split ht
    have hc : c ≤ indices.length := (tiles_le g2).trans hb
    rw [searchBoxC, searchBox]
    simp only [h2, h3, h4, ihl g1 hc, ihr g2 hb, reportNodeC_eq g1 hc, reportNodeC_eq g2 hb, Outcome.bind_ok,
      ← apply_ite Outcome.ok]

end Boxes

section Bounds
variable {α : Type} [LinearOrder α] {d : Nat}

theorem fitC_foldl (x : Pt α d) (p : Reader α) (hp : ∀ j : Fin d, p j = .ok (x j)) (l : List (Fin d)) (hl : l.Nodup)
    (b : Box α d) : l.foldl (fitStep p) (.ok b) = .ok ⟨fun j => if j ∈ l ∧ x j < b.min j then x j else b.min j,
      fun j => if j ∈ l ∧ x j > b.max j then x j else b.max j⟩ := by
  induction l generalizing b with
  | nil => simp
  | cons i l ih =>
    have hi : i ∉ l := (List.nodup_cons.1 hl).1
    have hs : fitStep p (.ok b) i = .ok ⟨fun j => if j = i ∧ x j < b.min j then x j else b.min j,
        fun j => if j = i ∧ x j > b.max j then x j else b.max j⟩ := by
      unfold fitStep
      rw [Outcome.bind_ok, hp, Outcome.bind_ok]
      have e1 : ∀ v, (fun j => if j = i ∧ x j < v j then x j else v j) =
          if x i < v i then Function.update v i (x i) else v := by
        intro v
        funext j
        by_cases hj : j = i
        · subst hj; by_cases h : x j < v j <;> simp [h]
        · by_cases h : x i < v i <;> simp [h, hj]
      have e2 : ∀ v, (fun j => if j = i ∧ x j > v j then x j else v j) =
          if x i > v i then Function.update v i (x i) else v := by
        intro v
        funext j
        by_cases hj : j = i
        · subst hj; by_cases h : x j > v j <;> simp only [h, and_self, and_true, and_false, if_true, if_false,
            Function.update_self]
        · by_cases h : x i > v i <;> simp only [h, hj, false_and, if_true, if_false, ne_eq, not_false_eq_true,
            Function.update_of_ne]
      rw [e1, e2]
      by_cases h1 : x i < b.min i <;> by_cases h2 : x i > b.max i <;>
        simp only [h1, h2, if_true, if_false, Box.setMin, Box.setMax]
    rw [List.foldl_cons, hs, ih (List.nodup_cons.1 hl).2]
    congr 2 <;> funext j <;> by_cases hj : j = i
    · subst hj; simp [hi]
    · simp [hj]
    · subst hj; simp [hi]
    · simp [hj]

theorem fitC_eq (x : Pt α d) (p : Reader α) (hp : ∀ j : Fin d, p j = .ok (x j)) (b : Box α d) :
    fitC b p = .ok (b.fitPt x) := by
  unfold fitC
  rw [fitC_foldl x p hp _ (List.nodup_finRange d)]
  simp [Box.fitPt]

theorem fitStep_ub (p : Reader α) (l : List (Fin d)) : l.foldl (fitStep p) (.ub : Outcome (Box α d)) = .ub := by
  induction l with
  | nil => rfl
  | cons i l ih => exact ih

theorem fitC_ub (p : Reader α) (hp : ∀ j, p j ≠ .oof) {j : Fin d} (hj : p j = .ub) (b : Box α d) : fitC b p = .ub := by
  unfold fitC
  have key : ∀ (l : List (Fin d)) (b : Box α d), j ∈ l → l.foldl (fitStep p) (.ok b) = .ub := by
    intro l
    induction l with
    | nil => simp
    | cons i l ih =>
      intro b hm
      rw [List.foldl_cons]
      cases hi : p i with
      | ub => rw [show fitStep p (.ok b) i = .ub by unfold fitStep; rw [Outcome.bind_ok, hi]; rfl]; exact fitStep_ub p l
      | oof => exact absurd hi (hp _)
      | ok v =>
        have hne : j ≠ i := by rintro rfl; rw [hj] at hi; cases hi
        rw [show fitStep p (.ok b) i = .ok _ by unfold fitStep; rw [Outcome.bind_ok, hi]; rfl]
        exact ih _ ((List.mem_cons.1 hm).resolve_left hne)
  exact key _ b (List.mem_finRange j)

end Bounds

end Pico
