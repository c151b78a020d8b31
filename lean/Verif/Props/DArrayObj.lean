import Verif.Proof.DArrayObj
import Verif.Proof.Array

/-!
# C132: DArrays are typed values that share nothing
-/

namespace Pico.Darr

open Spec

variable {β : Type} (extra : Nat → Nat)

/-- Every step keeps the invariant, forgets no number, and changes the type of no `DArray`. -/
theorem step_inv {w w' : World β} (hw : Inv w) (op : Op β) (h : step extra w op = .ok w') :
    Inv w' ∧ w.nextArray ≤ w'.nextArray ∧ ∀ d t xs, d < w.nextArray → contents w' d = some (t, xs) →
      ∃ xs0, contents w d = some (t, xs0) := by
  have same : ∀ {u : World β}, (∀ d, d ≠ w.nextArray → contents u d = contents w d) → ∀ d t xs, d < w.nextArray →
      contents u d = some (t, xs) → ∃ xs0, contents w d = some (t, xs0) := fun hu d t xs hd hc =>
    ⟨xs, by rw [← hu d (by omega)]; exact hc⟩
  cases op with
  | new t =>
    cases t with
    | none => simp [step, ofDtype, Call.bind] at h
    | some t =>
      obtain ⟨u, h1, h2, -, -, h3⟩ := step_new extra hw t
      have : w.nextArray ≤ u.nextArray := by
        simp only [step, ofDtype, Call.bind, Call.ok.injEq] at h1
        rw [← h1]
        exact Nat.le_succ _
      rw [h1] at h
      cases h
      exact ⟨h2, this, same h3⟩
  | search t res =>
    obtain ⟨u, h1, h2, -, -, h3⟩ := step_search extra hw t res
    have hu := h1
    rw [h1] at h
    cases h
    refine ⟨h2, ?_, same h3⟩
    simp only [step] at hu
    cases hs : searchInto extra w.mem (ofVector t []) t res with
    | ok x =>
      rw [hs] at hu
      simp only [Call.bind, Call.ok.injEq] at hu
      subst hu
      exact Nat.le_succ _
    | _ => rw [hs] at hu; simp [Call.bind] at hu
  | searchInto d t res =>
    cases ha : w.arrays d with
    | none => simp [step, ha] at h
    | some a =>
      obtain _ | ⟨t0, bs⟩ := a
      · exact absurd ha (hw.notNull d)
      by_cases ht : t0 = t
      · subst ht
        obtain ⟨u, h1, h2, -, h3, h4⟩ := step_searchInto extra hw (contents_some w ha) res
        have hu := h1
        rw [h1] at h
        cases h
        refine ⟨h2, ?_, fun d' t' xs' hd' hc => ?_⟩
        · simp only [step, ha] at hu
          cases hs : searchInto extra w.mem (some (t0, bs)) t0 res with
          | ok x =>
            rw [hs] at hu
            simp only [Call.bind, Call.ok.injEq] at hu
            subst hu
            exact le_rfl
          | _ => rw [hs] at hu; simp [Call.bind] at hu
        · by_cases e : d' = d
          · subst e
            rw [h3] at hc
            simp only [Option.some.injEq, Prod.mk.injEq] at hc
            exact ⟨_, hc.1 ▸ contents_some w ha⟩
          · exact ⟨xs', by rw [← h4 d' e]; exact hc⟩
      · rw [step_searchInto_other extra (contents_some w ha) ht] at h
        simp at h
  | slice d start stop st =>
    cases ha : w.arrays d with
    | none => simp [step, ha] at h
    | some a =>
      obtain _ | ⟨t0, bs⟩ := a
      · exact absurd ha (hw.notNull d)
      cases hs : getslice bs start stop st with
      | ok cs =>
        obtain ⟨u, h1, h2, -, -, h3⟩ := step_slice extra hw ha hs
        have hu := h1
        rw [h1] at h
        cases h
        refine ⟨h2, ?_, same h3⟩
        simp only [step, ha, hs, Call.bind] at hu
        cases hc : copyCells w.mem cs with
        | ok x =>
          rw [hc] at hu
          simp only [Call.ok.injEq] at hu
          subst hu
          exact Nat.le_succ _
        | _ => rw [hc] at hu; simp at hu
      | _ => simp [step, ha, hs, Call.bind] at h
  | item d i =>
    cases ha : w.arrays d with
    | none => simp [step, ha] at h
    | some a =>
      obtain _ | ⟨t0, bs⟩ := a
      · exact absurd ha (hw.notNull d)
      rcases getitem_get bs i with hg | ⟨b, hg, hb⟩
      · simp [step, ha, hg, Call.bind] at h
      · obtain ⟨u, h1, h2, h3, h4, h5, -⟩ := addView_ok hw ha hb
        simp only [step, ha, hg, Call.bind, h1, Call.ok.injEq] at h
        subst h
        exact ⟨h2, h5.ge, fun d' t' xs' _ hc => ⟨xs', by
          rw [← contents_congr (w := w) (by rw [h3]) fun _ _ _ _ _ => by rw [h4]]; exact hc⟩⟩
  | list d =>
    cases ha : w.arrays d with
    | none => simp [step, ha] at h
    | some a =>
      obtain _ | ⟨t0, bs⟩ := a
      · exact absurd ha (hw.notNull d)
      obtain ⟨u, h1, h2, h3, h4, h5, -⟩ := addViews_ok bs bs 0 hw ha rfl
      simp only [step, ha, size, Call.bind, listOf_ok, h1, Call.ok.injEq] at h
      subst h
      exact ⟨h2, h5.ge, fun d' t' xs' _ hc => ⟨xs', by
        rw [← contents_congr (w := w) (by rw [h3]) fun _ _ _ _ _ => by rw [h4]]; exact hc⟩⟩
  | write v j x =>
    obtain ⟨h1, -, view, t, xs, l, -, -, h3, -, h4, h5⟩ := step_write extra hw h
    refine ⟨h1, ?_, fun d' t' xs' _ hc => ?_⟩
    · simp only [step] at h
      split at h
      · simp at h
      · split at h
        · split at h
          · simp at h
          · simp only [Call.ok.injEq] at h
            subst h
            exact le_rfl
        · simp at h
    · by_cases e : d' = view.darray
      · subst e
        rw [h4] at hc
        simp only [Option.some.injEq, Prod.mk.injEq] at hc
        exact ⟨xs, hc.1 ▸ h3⟩
      · exact ⟨xs', by rw [← h5 d' e]; exact hc⟩
  | del d =>
    cases ha : w.arrays d with
    | none => simp [step, ha] at h
    | some a =>
      obtain _ | ⟨t0, bs⟩ := a
      · exact absurd ha (hw.notNull d)
      obtain ⟨u, h1, h2, -, h3, h4⟩ := step_del extra hw (contents_some w ha)
      have hu := h1
      rw [h1] at h
      cases h
      refine ⟨h2, ?_, fun d' t' xs' _ hc => ?_⟩
      · simp only [step, ha, Call.ok.injEq] at hu
        subst hu
        exact le_rfl
      · by_cases e : d' = d
        · subst e
          rw [h3] at hc
          simp at hc
        · exact ⟨xs', by rw [← h4 d' e]; exact hc⟩

theorem exec_inv : ∀ (ops : List (Op β)) {w w' : World β}, Inv w → exec extra w ops = .ok w' →
    Inv w' ∧ w.nextArray ≤ w'.nextArray ∧ ∀ d t xs, d < w.nextArray → contents w' d = some (t, xs) →
      ∃ xs0, contents w d = some (t, xs0)
  | [], w, w', hw, h => by
    rw [exec] at h
    cases h
    exact ⟨hw, le_rfl, fun d t xs _ hc => ⟨xs, hc⟩⟩
  | op :: ops, w, w', hw, h => by
    rw [exec] at h
    cases hs : step extra w op with
    | ok u =>
      rw [hs] at h
      obtain ⟨h1, h2, h3⟩ := step_inv extra hw op hs
      obtain ⟨k1, k2, k3⟩ := exec_inv ops h1 h
      refine ⟨k1, h2.trans k2, fun d t xs hd hc => ?_⟩
      obtain ⟨xs0, h0⟩ := k3 d t xs (hd.trans_le h2) hc
      exact h3 d t xs0 hd h0
    | throws =>
      rw [hs] at h
      exact exec_inv ops hw h
    | _ => rw [hs] at h; simp at h

end Pico.Darr

namespace Pico.Props

open Spec Darr

section Program
variable {β : Type} {extra : Nat → Nat} {w : World β} (hw : Reaches extra w)
include hw

/-- What holds after any program. -/
theorem reaches_inv : Inv w := by
  obtain ⟨ops, h⟩ := hw
  exact (exec_inv extra ops Inv.init h).1

/-- C132 (type): a `DArray` has the type it was made for as long as it exists, whatever the program does. -/
theorem c132_type (ops : List (Op β)) {w' : World β} (h : exec extra w ops = .ok w') {d : Nat} {t t' : Elt}
    {xs xs' : List (List β)} (h1 : contents w d = some (t, xs)) (h2 : contents w' d = some (t', xs')) : t' = t := by
  have hi := reaches_inv hw
  obtain ⟨bs, ha, -⟩ := Inv.of_contents h1
  obtain ⟨xs0, h3⟩ := (exec_inv extra ops hi h).2.2 d t' xs' (lt_of_array hi ha) h2
  rw [h1] at h3
  simp only [Option.some.injEq, Prod.mk.injEq] at h3
  exact h3.1.symm

/-- C132 (creation): `DArray(dtype)` is an empty array of a supported type; any other dtype raises. No other array
changes. -/
theorem c132_new (t : Elt) : step extra w (.new none) = .throws ∧
    ∃ w', step extra w (.new (some t)) = .ok w' ∧ contents w w.nextArray = none ∧
      contents w' w.nextArray = some (t, []) ∧ ∀ d, d ≠ w.nextArray → contents w' d = contents w d := by
  obtain ⟨w', h1, -, -, h2, h3⟩ := step_new extra (reaches_inv hw) t
  refine ⟨rfl, w', h1, ?_, h2, h3⟩
  simp [contents, (reaches_inv hw).freshArray _ le_rfl]

/-- C132 (search): the results of a search are the elements of a new array, and no other array changes. -/
theorem c132_search (t : Elt) (res : List (List β)) : ∃ w', step extra w (.search t res) = .ok w' ∧
    contents w w.nextArray = none ∧ contents w' w.nextArray = some (t, res) ∧
    ∀ d, d ≠ w.nextArray → contents w' d = contents w d := by
  obtain ⟨w', h1, -, -, h2, h3⟩ := step_search extra (reaches_inv hw) t res
  exact ⟨w', h1, by simp [contents, (reaches_inv hw).freshArray _ le_rfl], h2, h3⟩

/-- C132 (output): a search with an output array of its type replaces the elements of that array, whatever these
were, and changes no other array. With an array of another type it raises, and nothing changes. -/
theorem c132_output {d : Nat} {t : Elt} {xs : List (List β)} (hd : contents w d = some (t, xs)) (t' : Elt)
    (res : List (List β)) :
    (t' = t → ∃ w', step extra w (.searchInto d t' res) = .ok w' ∧ contents w' d = some (t, res) ∧
      ∀ d', d' ≠ d → contents w' d' = contents w d') ∧
    (t' ≠ t → step extra w (.searchInto d t' res) = .throws) := by
  refine ⟨?_, fun ht => step_searchInto_other extra hd ht.symm res⟩
  rintro rfl
  obtain ⟨w', h1, -, -, h2, h3⟩ := step_searchInto extra (reaches_inv hw) hd res
  exact ⟨w', h1, h2, h3⟩

/-- C132 (slice): a slice is a new array of the same type with copies of the elements that Python's slices name, in
their order. No other array changes. -/
theorem c132_slice {d : Nat} {t : Elt} {xs : List (List β)} (hd : contents w d = some (t, xs)) (hn : xs.length < 2 ^ 63)
    (start stop : Option Int) (st : Int) (hs : st ≠ 0) :
    ∃ w' is out, step extra w (.slice d start stop (some st)) = .ok w' ∧ contents w w.nextArray = none ∧
      contents w' w.nextArray = some (t, out) ∧ List.Forall₂ (fun i l => readAt xs i = some l) is out ∧
      (st < 0 → is.Pairwise (· > ·)) ∧ (0 < st → is.Pairwise (· < ·)) ∧
      (∀ i, i ∈ is ↔ InSlice xs.length start stop st i) ∧ ∀ d', d' ≠ w.nextArray → contents w' d' = contents w d' := by
  obtain ⟨bs, ha, rfl⟩ := Inv.of_contents hd
  rw [List.length_map] at hn
  obtain ⟨is, cs, h1, h2, h3, h4, h5⟩ := c36_slice bs hn start stop st hs
  obtain ⟨w', k1, -, -, k2, k3⟩ := step_slice extra (reaches_inv hw) ha h1
  refine ⟨w', is, cs.map w.mem.vals, k1, by simp [contents, (reaches_inv hw).freshArray _ le_rfl], k2, ?_, h3, h4,
    by simpa using h5, k3⟩
  rw [List.forall₂_map_right_iff]
  refine h2.imp fun i b h => ?_
  unfold readAt at h ⊢
  split at h
  · rename_i hi
    rw [if_pos hi, List.getElem?_map, h]
    rfl
  · simp at h

/-- C132 (index): `d[i]` shows element `i`, or `n + i`; nothing changes. -/
theorem c132_item {d : Nat} {t : Elt} {xs : List (List β)} (hd : contents w d = some (t, xs)) (hn : xs.length < 2 ^ 63)
    (i : Int) (j : Nat) (hj : j < xs.length) (hi : i = j ∨ i = j - xs.length) :
    ∃ w', step extra w (.item d i) = .ok w' ∧ MadeFrom w' w.nextView d j xs[j].length ∧
      shown w' w.nextView = some xs[j] ∧ ∀ d', contents w' d' = contents w d' := by
  obtain ⟨bs, ha, rfl⟩ := Inv.of_contents hd
  rw [List.length_map] at hn hj hi
  have hg := (c36_index bs hn i (by omega) (by omega)).1 j hj hi
  have hx : getitemIndex bs.length i = j := by rw [getitemIndex_eq hn (by omega)]; split <;> omega
  have hc : (toU64 (getitemIndex bs.length i)).toNat = j := by rw [hx, toU64_of_range (by omega) (by omega)]; simp
  obtain ⟨w', h1, -, h2, h3, -, -, h4⟩ := addView_ok (reaches_inv hw) (c := j) ha (List.getElem?_eq_getElem hj)
  obtain ⟨blk, hb⟩ := (reaches_inv hw).live _ _ _ ha bs[j] (List.getElem_mem hj)
  refine ⟨w', by simp only [step, ha, hg, Call.bind, hc, h1], ⟨⟨bs[j], (w.mem.vals bs[j]).length, d, j⟩, by rw [h4]; simp, rfl, rfl, by simp⟩, ?_,
    fun d' => contents_congr (by rw [h2]) fun _ _ _ _ _ => by rw [h3]⟩
  simp only [shown, h4, Function.update_self, Option.bind_some, h3, hb, Option.map_some, Mem.vals, Option.getD_some,
    List.take_length, List.getElem_map]

/-- C132 (iteration): a loop over a `DArray` gives one array for each element, in order. -/
theorem c132_iter {d : Nat} {t : Elt} {xs : List (List β)} (hd : contents w d = some (t, xs)) :
    ∃ w', step extra w (.list d) = .ok w' ∧ (∀ (j : Nat) (h : j < xs.length),
      MadeFrom w' (w.nextView + j) d j xs[j].length ∧ shown w' (w.nextView + j) = some xs[j]) ∧
      ∀ d', contents w' d' = contents w d' := by
  obtain ⟨bs, ha, rfl⟩ := Inv.of_contents hd
  obtain ⟨w', h1, -, h2, h3, -, -, h4⟩ := addViews_ok bs bs 0 (reaches_inv hw) ha rfl
  refine ⟨w', by simp only [step, ha, size, Call.bind, listOf_ok, h1], fun j hj => ?_,
    fun d' => contents_congr (by rw [h2]) fun _ _ _ _ _ => by rw [h3]⟩
  rw [List.length_map] at hj
  obtain ⟨blk, hb⟩ := (reaches_inv hw).live _ _ _ ha bs[j] (List.getElem_mem hj)
  have hv := h4 j bs[j] (List.getElem?_eq_getElem hj)
  refine ⟨⟨_, hv, rfl, by simp, by simp⟩, ?_⟩
  simp only [shown, hv, Option.bind_some, h3, hb, Option.map_some, Mem.vals, Option.getD_some,
    List.take_length, List.getElem_map]

/-- C132 (views): as long as its memory has not been freed, the array that indexing or iteration gave shows its element
of its `DArray`, as that is now. -/
theorem c132_view {v d c n : Nat} (h : MadeFrom w v d c n) (hv : ¬ Dangling w v) :
    ∃ t xs l, contents w d = some (t, xs) ∧ xs[c]? = some l ∧ shown w v = some (l.take n) := by
  obtain ⟨x, hx, rfl, rfl, rfl⟩ := h
  obtain ⟨-, h2⟩ := (reaches_inv hw).view v x hx
  cases hb : w.mem.blocks x.block with
  | none => exact absurd ⟨x, hx, hb⟩ hv
  | some blk =>
    obtain ⟨t, bs, ha, hc⟩ := h2 ⟨blk, hb⟩
    refine ⟨t, _, w.mem.vals x.block, contents_some w ha, by rw [List.getElem?_map, hc]; rfl, ?_⟩
    simp [shown, hx, hb, Mem.vals]

/-- C132 (writing): an assignment to the array that was made from element `c` of `d` changes this element at this
place, and no other element and no other array; slices and results that were made before keep their values. -/
theorem c132_write {v d c n j : Nat} {x : β} {w' : World β} (hv : MadeFrom w v d c n)
    (h : step extra w (.write v j x) = .ok w') :
    j < n ∧ ∃ t xs l, contents w d = some (t, xs) ∧ xs[c]? = some l ∧ contents w' d = some (t, xs.set c (l.set j x)) ∧
      ∀ d', d' ≠ d → contents w' d' = contents w d' := by
  obtain ⟨y, hy, rfl, rfl, rfl⟩ := hv
  obtain ⟨-, -, view, t, xs, l, h1, h2, h3, h4, h5, h6⟩ := step_write extra (reaches_inv hw) h
  rw [hy] at h1
  cases h1
  exact ⟨h2, t, xs, l, h3, h4, h5, h6⟩

/-- C132 (destruction): the other arrays keep their elements. -/
theorem c132_del {d : Nat} {t : Elt} {xs : List (List β)} (hd : contents w d = some (t, xs)) :
    ∃ w', step extra w (.del d) = .ok w' ∧ contents w' d = none ∧ ∀ d', d' ≠ d → contents w' d' = contents w d' := by
  obtain ⟨w', h1, -, -, h2, h3⟩ := step_del extra (reaches_inv hw) hd
  exact ⟨w', h1, h2, h3⟩

/-- C132 (safety): the only statement that can be undefined is an assignment to a NumPy array whose memory has been
freed (C59 says when that happens); every other one succeeds or raises. -/
theorem c132_safe (hn : ∀ d t xs, contents w d = some (t, xs) → xs.length < 2 ^ 63) (op : Op β) :
    (∃ w', step extra w op = .ok w') ∨ step extra w op = .throws ∨
      (step extra w op = .ub ∧ ∃ v j x, op = .write v j x ∧ Dangling w v) := by
  have hi := reaches_inv hw
  cases op with
  | new t =>
    cases t with
    | none => exact .inr (.inl rfl)
    | some t => exact .inl ⟨_, rfl⟩
  | search t res =>
    obtain ⟨w', h, -⟩ := step_search extra hi t res
    exact .inl ⟨w', h⟩
  | searchInto d t res =>
    cases ha : w.arrays d with
    | none => exact .inr (.inl (by simp [step, ha]))
    | some a =>
      obtain _ | ⟨t0, bs⟩ := a
      · exact absurd ha (hi.notNull d)
      by_cases ht : t0 = t
      · subst ht
        obtain ⟨w', h, -⟩ := step_searchInto extra hi (contents_some w ha) res
        exact .inl ⟨w', h⟩
      · exact .inr (.inl (step_searchInto_other extra (contents_some w ha) ht res))
  | slice d start stop st =>
    cases ha : w.arrays d with
    | none => exact .inr (.inl (by simp [step, ha]))
    | some a =>
      obtain _ | ⟨t0, bs⟩ := a
      · exact absurd ha (hi.notNull d)
      rcases getslice_safe bs (by simpa using hn _ _ _ (contents_some w ha)) start stop st with hs | ⟨cs, hs⟩
      · exact .inr (.inl (by simp [step, ha, hs, Call.bind]))
      · obtain ⟨w', h, -⟩ := step_slice extra hi ha hs
        exact .inl ⟨w', h⟩
  | item d i =>
    cases ha : w.arrays d with
    | none => exact .inr (.inl (by simp [step, ha]))
    | some a =>
      obtain _ | ⟨t0, bs⟩ := a
      · exact absurd ha (hi.notNull d)
      rcases getitem_get bs i with hg | ⟨b, hg, hb⟩
      · exact .inr (.inl (by simp [step, ha, hg, Call.bind]))
      · obtain ⟨w', h, -⟩ := addView_ok hi ha hb
        exact .inl ⟨w', by simp only [step, ha, hg, Call.bind, h]⟩
  | list d =>
    cases ha : w.arrays d with
    | none => exact .inr (.inl (by simp [step, ha]))
    | some a =>
      obtain _ | ⟨t0, bs⟩ := a
      · exact absurd ha (hi.notNull d)
      obtain ⟨w', h, -⟩ := c132_iter hw (contents_some w ha)
      exact .inl ⟨w', h⟩
  | write v j x =>
    cases hv : w.views v with
    | none => exact .inr (.inl (by simp [step, hv]))
    | some view =>
      by_cases hj : j < view.len
      · cases hb : w.mem.blocks view.block with
        | none => exact .inr (.inr ⟨by simp [step, hv, hj, hb], v, j, x, rfl, view, hv, hb⟩)
        | some blk =>
          left
          simp only [step, hv, hj, hb, if_true]
          exact ⟨_, rfl⟩
      · exact .inr (.inl (by simp [step, hv, hj]))
  | del d =>
    cases ha : w.arrays d with
    | none => exact .inr (.inl (by simp [step, ha]))
    | some a =>
      left
      simp only [step, ha]
      exact ⟨_, rfl⟩

end Program

/-- C132 (C++ interface): `data<T_>()` gives the vectors of an object of type `T_` and throws for any other object,
also for one without contents. `data_unchecked<T_>()` agrees where `data<T_>()` succeeds, and is undefined elsewhere. -/
theorem c132_data {γ : Type} (a : Impl γ) (t : Elt) :
    (∀ xs, data t a = .ok xs ↔ a = some (t, xs)) ∧ ((∀ xs, a ≠ some (t, xs)) → data t a = .throws) ∧
    (∀ xs, data t a = .ok xs → dataUnchecked t a = .ok xs) ∧ (data t a = .throws → dataUnchecked t a = .ub) := by
  obtain _ | ⟨t', xs⟩ := a
  · simp [data, dataUnchecked]
  · by_cases h : t' = t
    · subst h
      simp [data, dataUnchecked]
    · simp [data, dataUnchecked, h]

/-- C132 (about the limits): a `darray` that was default constructed or moved from has no contents. `data<T_>()` reports
that; `size()`, `empty()`, `dtype()`, indexing and iteration do not, and are undefined. Python never sees such an
object (`c132_safe`). -/
theorem c132_null_false {γ : Type} (a : Impl γ) (t : Elt) (i fuel : Nat) : (move a).2 = null ∧ data t (move a).2 = .throws ∧
    size (move a).2 = .ub ∧ empty (move a).2 = .ub ∧ dtype (move a).2 = .ub ∧ elem (move a).2 i = .ub ∧
    listOf fuel (move a).2 = .ub := ⟨rfl, rfl, rfl, rfl, rfl, rfl, rfl⟩

/-! ### Examples -/

/-- A program: results, a slice of them, an assignment to a view of the first element, and a search that reuses the
array. The slice keeps the old values. -/
example : ∃ w : World Nat, exec (fun _ => 0) World.init
    [.search .int [[1, 2], [3], [4, 5]], .slice 0 none none (some (-2)), .item 0 (-3), .write 0 1 9,
      .searchInto 0 .neighborF [], .new none] = .ok w ∧
    contents w 0 = some (.int, [[1, 9], [3], [4, 5]]) ∧ contents w 1 = some (.int, [[4, 5], [1, 2]]) ∧
    shown w 0 = some [1, 9] ∧ contents w 2 = none := by
  have h : (exec (fun _ => 0) (World.init : World Nat)
    [.search .int [[1, 2], [3], [4, 5]], .slice 0 none none (some (-2)), .item 0 (-3), .write 0 1 9,
      .searchInto 0 .neighborF [], .new none]).check (fun w => decide
    (contents w 0 = some (.int, [[1, 9], [3], [4, 5]]) ∧ contents w 1 = some (.int, [[4, 5], [1, 2]]) ∧
      shown w 0 = some [1, 9] ∧ contents w 2 = none)) = true := by decide +kernel
  obtain ⟨w, h1, h2⟩ := Call.exists_of_check h
  exact ⟨w, h1, of_decide_eq_true h2⟩

/-- Reusing the array with a longer result leaves the view dangling (C59). -/
example : (match exec (fun _ => 0) (World.init : World Nat)
      [.search .int [[1, 2], [3], [4, 5]], .item 0 (-3), .searchInto 0 .int [[1, 2, 3]], .write 0 1 9] with
    | .ub => true
    | _ => false) = true := by decide +kernel

end Pico.Props
