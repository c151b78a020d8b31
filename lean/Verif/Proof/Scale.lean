import Verif.Proof.RoundingError
import Verif.Proof.Saturate
import Verif.Proof.Similar

/-!
# Scaling by a power of two in rounded arithmetic

`s` is a scalar such that the sum of two scalars is rounded in the same way after multiplication with `s`.  The
construction and the searches on multiplied coordinates do the same as on the original ones, if nothing comes close to
the largest number.
-/

set_option linter.unusedSectionVars false

namespace Pico

section Arithmetic
variable {K : Type} [Field K] [LinearOrder K] [IsStrictOrderedRing K]

/-- Multiplication with `s` commutes with the rounding of sums. -/
structure Rounding.Scales (R : Rounding K) (s : K) : Prop where
  pos : 0 < s
  add : ∀ x y, R.rd x = x → R.rd y = y → R.rd (s * (x + y)) = s * R.rd (x + y)

variable {R : Rounding K} {s : R.F} (hs : R.Scales s.1)
include hs

theorem Rounding.Scales.scalar {x : K} (hx : R.rd x = x) : R.rd (s.1 * x) = s.1 * x := by
  have := hs.add x 0 hx R.rd_zero
  rwa [add_zero, hx] at this

theorem Rounding.Scales.val (x : R.F) : (s * x).1 = s.1 * x.1 := hs.scalar x.2

theorem Rounding.Scales.mul_add (x y : R.F) : s * (x + y) = s * x + s * y := by
  apply Subtype.ext
  rw [R.val_add, hs.val, hs.val, hs.val, R.val_add, ← _root_.mul_add]
  exact (hs.add _ _ x.2 y.2).symm

theorem Rounding.Scales.mul_neg (x : R.F) : s * -x = -(s * x) := by
  apply Subtype.ext
  rw [R.val_neg, hs.val, hs.val, R.val_neg, _root_.mul_neg]

theorem Rounding.Scales.mul_sub (x y : R.F) : s * (x - y) = s * x - s * y := by
  rw [R.sub_eq, R.sub_eq, hs.mul_add, hs.mul_neg]

theorem Rounding.Scales.mul_zero : s * (0 : R.F) = 0 := by
  apply Subtype.ext
  rw [hs.val, R.val_zero, MulZeroClass.mul_zero]

theorem Rounding.Scales.increasing : Increasing s := by
  intro x y
  rw [R.lt_iff, R.lt_iff, hs.val, hs.val]
  exact mul_lt_mul_iff_right₀ hs.pos

theorem Rounding.Scales.pos_iff (x : R.F) : 0 < s * x ↔ 0 < x := by
  have := hs.increasing 0 x
  rwa [hs.mul_zero] at this

theorem Rounding.Scales.abs (x : R.F) : sabs (s * x) = s * sabs x := by
  have := hs.increasing x 0
  rw [hs.mul_zero] at this
  unfold sabs
  simp only [this]
  split_ifs
  · rw [hs.mul_neg]
  · rfl

theorem Rounding.Scales.loopSum {d : Nat} (f : Fin d → R.F) : (Pico.loopSum fun j => s * f j) = s * Pico.loopSum f := by
  have key : ∀ (l : List (Fin d)) (acc : R.F), l.foldl (fun acc j => acc + s * f j) (s * acc) =
      s * l.foldl (fun acc j => acc + f j) acc := by
    intro l
    induction l with
    | nil => intro acc; rfl
    | cons a l ih =>
      intro acc
      rw [List.foldl_cons, List.foldl_cons, ← hs.mul_add, ih]
  have := key (List.finRange d) 0
  rwa [hs.mul_zero] at this

end Arithmetic

/-! ## The search -/

section Search
variable {α : Type} [LinearOrder α] [Zero α] [Add α] [Sub α] [Mul α] {d : Nat} {β σ σ' : Type}

/-- The search of a subtree without points changes nothing. -/
theorem searchNearest_nothing (splitDim : β → Fin d) (pick : β → Bool × α) (V : Visitor α σ) (dist : Nat → α)
    (indices : List Nat) (t : Tree β) (ht : t.elems indices = []) (D : α) (st : Pt α d × σ) :
    searchNearest splitDim pick V dist indices t D st = st := by
  obtain ⟨vis, skip, hp, he⟩ := searchNearest_struct splitDim pick V dist indices t D st
  rw [he]
  rw [ht] at hp
  have := hp.eq_nil
  rw [List.append_eq_nil_iff] at this
  rw [this.1]
  rfl

/-- All branches have the property. -/
def Tree.Every {β : Type} (P : β → Prop) : Tree β → Prop
  | .leaf _ _ => True
  | .branch b l r => P b ∧ Tree.Every P l ∧ Tree.Every P r

theorem Tree.Every.mono {β : Type} {P Q : β → Prop} {t : Tree β} (h : t.Every P) (hPQ : ∀ b, P b → Q b) : t.Every Q := by
  induction t with
  | leaf _ _ => trivial
  | branch b l r ih1 ih2 => exact ⟨hPQ b h.1, ih1 h.2.1, ih2 h.2.2⟩

theorem Tree.every_of {β : Type} {P : β → Prop} (h : ∀ b, P b) (t : Tree β) : t.Every P := by
  induction t with
  | leaf _ _ => trivial
  | branch b l r ih1 ih2 => exact ⟨h b, ih1, ih2⟩

/-- Two runs of the traversal, the second on mapped branch data with distances multiplied by `c`.  `P m D off i`: after
`m` offset updates the running distance and the offsets are admissible for point `i`. -/
theorem searchNearest_scaled (splitDim : β → Fin d) (pick pick' : β → Bool × α) (V : Visitor α σ)
    (W : Visitor α σ') (dist dist' : Nat → α) (indices : List Nat) (f : β → β) (c : α)
    (hdim : ∀ b, splitDim (f b) = splitDim b)
    (hmul : ∀ a b x : α, c * (a - b + x) = c * a - c * b + c * x)
    (A : Nat → Prop) (R : σ → σ' → Prop) (term : Fin d → Nat → α) (P : Nat → α → Pt α d → Nat → Prop) (H : Nat)
    (hmono : ∀ m D off i, P m D off i → P (m + 1) D off i)
    (hstep : ∀ m D off i data, A i → P m D off i → (∀ j, off j ≤ term j i) →
      (pick data).2 ≤ term (splitDim data) i →
      P (m + 1) (D - off (splitDim data) + (pick data).2)
        (Function.update off (splitDim data) (pick data).2) i)
    (hvisit : ∀ u w i, A i → R u w → R (V.visit u i (dist i)) (W.visit w i (dist' i)))
    (hmax : ∀ u w i D off, A i → R u w → P H D off i → (∀ j, off j ≤ term j i) → (D ≤ V.max u ↔ c * D ≤ W.max w))
    (t : Tree β) (hA : ∀ i ∈ t.elems indices, A i) (hG : Guard splitDim pick indices term t)
    (hpick : t.Every fun b => pick' (f b) = ((pick b).1, c * (pick b).2)) (m : Nat) (hH : m + Spec.height t ≤ H) (D : α) (off : Pt α d) (hP : ∀ i ∈ t.elems indices, P m D off i)
    (hoff : ∀ i ∈ t.elems indices, ∀ j, off j ≤ term j i) (u : σ) (w : σ') (hR : R u w) :
    ∃ u' w', R u' w' ∧ searchNearest splitDim pick V dist indices t D (off, u) = (off, u') ∧
      searchNearest splitDim pick' W dist' indices (t.map f) (c * D) (fun j => c * off j, w) =
        (fun j => c * off j, w') := by
  have hle : ∀ a b D off i, a ≤ b → P a D off i → P b D off i := by
    intro a b D off i hab h
    induction hab with
    | refl => exact h
    | step _ ih => exact hmono _ _ _ _ ih
  induction t generalizing m D off u w with
  | leaf b e =>
    refine ⟨_, _, ?_, rfl, rfl⟩
    have hA' : ∀ i ∈ slice indices b e, A i := hA
    revert hA'
    generalize slice indices b e = l
    intro hA'
    unfold visitAll
    induction l generalizing u w with
    | nil => exact hR
    | cons a l ih =>
      exact ih _ _ (hvisit u w a (hA' a (by simp)) hR) fun i hi => hA' i (by simp [hi])
  | branch data l r ihl ihr =>
    have hupd : (fun j => c * Function.update off (splitDim data) (pick data).2 j) =
        Function.update (fun j => c * off j) (splitDim data) (c * (pick data).2) := by
      funext j
      by_cases hj : j = splitDim data
      · subst hj; simp
      · simp [Function.update_of_ne hj]
    have hmulD := hmul D (off (splitDim data)) (pick data).2
    have hHb : Spec.height (Tree.branch data l r) = max (Spec.height l) (Spec.height r) + 1 := rfl
    rw [hHb] at hH
    have key : ∀ t1 t2 : Tree β, Spec.height t1 ≤ max (Spec.height l) (Spec.height r) →
        Spec.height t2 ≤ max (Spec.height l) (Spec.height r) →
        (∀ (m : Nat), m + Spec.height t1 ≤ H → ∀ (D : α) (off : Pt α d), (∀ i ∈ t1.elems indices, P m D off i) →
          (∀ i ∈ t1.elems indices, ∀ j, off j ≤ term j i) → ∀ (u : σ) (w : σ'), R u w →
          ∃ u' w', R u' w' ∧ searchNearest splitDim pick V dist indices t1 D (off, u) = (off, u') ∧
            searchNearest splitDim pick' W dist' indices (t1.map f) (c * D) (fun j => c * off j, w) =
              (fun j => c * off j, w')) →
        (∀ (m : Nat), m + Spec.height t2 ≤ H → ∀ (D : α) (off : Pt α d), (∀ i ∈ t2.elems indices, P m D off i) →
          (∀ i ∈ t2.elems indices, ∀ j, off j ≤ term j i) → ∀ (u : σ) (w : σ'), R u w →
          ∃ u' w', R u' w' ∧ searchNearest splitDim pick V dist indices t2 D (off, u) = (off, u') ∧
            searchNearest splitDim pick' W dist' indices (t2.map f) (c * D) (fun j => c * off j, w) =
              (fun j => c * off j, w')) →
        (∀ i ∈ t1.elems indices, i ∈ (Tree.branch data l r).elems indices) →
        (∀ i ∈ t2.elems indices, i ∈ (Tree.branch data l r).elems indices) →
        (∀ i ∈ t2.elems indices, (pick data).2 ≤ term (splitDim data) i) →
        ∃ u' w', R u' w' ∧
          (let st1 := searchNearest splitDim pick V dist indices t1 D (off, u)
           let oldOffset := st1.1 (splitDim data)
           let D' := D - oldOffset + (pick data).2
           if V.max st1.2 ≥ D' then
            let st' := (Function.update st1.1 (splitDim data) (pick data).2, st1.2)
            let st2 := searchNearest splitDim pick V dist indices t2 D' st'
            (Function.update st2.1 (splitDim data) oldOffset, st2.2)
           else st1) = (off, u') ∧
          (let st1 := searchNearest splitDim pick' W dist' indices (t1.map f) (c * D) (fun j => c * off j, w)
           let oldOffset := st1.1 (splitDim data)
           let D' := c * D - oldOffset + c * (pick data).2
           if W.max st1.2 ≥ D' then
            let st' := (Function.update st1.1 (splitDim data) (c * (pick data).2), st1.2)
            let st2 := searchNearest splitDim pick' W dist' indices (t2.map f) D' st'
            (Function.update st2.1 (splitDim data) oldOffset, st2.2)
           else st1) = (fun j => c * off j, w') := by
      intro t1 t2 g1 g2 h1 h2 hs1 hs2 hg
      obtain ⟨u1, w1, r1, e1, e2⟩ := h1 m (by omega) D off (fun i hi => hP i (hs1 i hi))
        (fun i hi => hoff i (hs1 i hi)) u w hR
      rw [e1, e2]
      dsimp only
      rw [← hmulD, ← hupd]
      have hoff' : ∀ i ∈ t2.elems indices, ∀ j,
          Function.update off (splitDim data) (pick data).2 j ≤ term j i := by
        intro i hi j
        by_cases hj : j = splitDim data
        · subst hj; simpa using hg i hi
        · simpa [Function.update_of_ne hj] using hoff i (hs2 i hi) j
      have hP' : ∀ i ∈ t2.elems indices, P (m + 1) (D - off (splitDim data) + (pick data).2)
          (Function.update off (splitDim data) (pick data).2) i := fun i hi =>
        hstep m D off i data (hA i (hs2 i hi)) (hP i (hs2 i hi)) (hoff i (hs2 i hi)) (hg i hi)
      obtain ⟨u2, w2, r2, k1, k2⟩ := h2 (m + 1) (by omega) _ _ hP' hoff' u1 w1 r1
      have hback : Function.update (Function.update off (splitDim data) (pick data).2) (splitDim data)
          (off (splitDim data)) = off := by
        rw [Function.update_idem, Function.update_eq_self]
      have hback' : Function.update (fun j => c * Function.update off (splitDim data) (pick data).2 j)
          (splitDim data) (c * off (splitDim data)) = fun j => c * off j := by
        rw [hupd, Function.update_idem]
        exact Function.update_eq_self (splitDim data) fun j => c * off j
      cases hel : t2.elems indices with
      | nil =>
        rw [searchNearest_nothing splitDim pick V dist indices t2 hel,
          searchNearest_nothing splitDim pick' W dist' indices (t2.map f) (by rw [Tree.elems_map, hel])]
        refine ⟨u1, w1, r1, ?_, ?_⟩
        · split_ifs
          · rw [hback]
          · rfl
        · split_ifs
          · rw [hback']
          · rfl
      | cons i rest =>
        have hi : i ∈ t2.elems indices := by rw [hel]; simp
        have hiff := hmax u1 w1 i _ _ (hA i (hs2 i hi)) r1 (hle (m + 1) H _ _ _ (by omega) (hP' i hi)) (hoff' i hi)
        by_cases hc : D - off (splitDim data) + (pick data).2 ≤ V.max u1
        · refine ⟨u2, w2, r2, ?_, ?_⟩
          · rw [if_pos hc, k1]
            dsimp only
            rw [hback]
          · rw [if_pos (hiff.1 hc), k2]
            dsimp only
            rw [hback']
        · refine ⟨u1, w1, r1, ?_, ?_⟩
          · rw [if_neg hc]
          · rw [if_neg (mt hiff.2 hc)]
    have hl : ∀ i ∈ l.elems indices, i ∈ (Tree.branch data l r).elems indices := fun i hi => by
      rw [Tree.elems]; exact List.mem_append_left _ hi
    have hr : ∀ i ∈ r.elems indices, i ∈ (Tree.branch data l r).elems indices := fun i hi => by
      rw [Tree.elems]; exact List.mem_append_right _ hi
    have hg := hG.1
    cases hb : (pick data).1 with
    | true =>
      rw [hb] at hg
      obtain ⟨u', w', k1, k2, k3⟩ := key l r (le_max_left _ _) (le_max_right _ _)
        (fun m hm D off hD ho u w hR => ihl (fun i hi => hA i (hl i hi)) hG.2.1 hpick.2.1 m hm D off hD ho u w hR)
        (fun m hm D off hD ho u w hR => ihr (fun i hi => hA i (hr i hi)) hG.2.2 hpick.2.2 m hm D off hD ho u w hR) hl hr hg
      refine ⟨u', w', k1, ?_, ?_⟩
      · rw [← k2]
        simp only [searchNearest, hb, if_true]
      · rw [← k3]
        simp only [searchNearest, Tree.map, hdim, hpick.1, hb, if_true]
    | false =>
      rw [hb] at hg
      obtain ⟨u', w', k1, k2, k3⟩ := key r l (le_max_right _ _) (le_max_left _ _)
        (fun m hm D off hD ho u w hR => ihr (fun i hi => hA i (hr i hi)) hG.2.2 hpick.2.2 m hm D off hD ho u w hR)
        (fun m hm D off hD ho u w hR => ihl (fun i hi => hA i (hl i hi)) hG.2.1 hpick.2.1 m hm D off hD ho u w hR) hr hl hg
      refine ⟨u', w', k1, ?_, ?_⟩
      · rw [← k2]
        simp only [searchNearest, hb, if_false, Bool.false_eq_true]
      · rw [← k3]
        simp only [searchNearest, Tree.map, hdim, hpick.1, hb, if_false, Bool.false_eq_true]

end Search

/-! ## The construction -/

section Build
variable {K : Type} [Field K] [LinearOrder K] [IsStrictOrderedRing K] {R : Rounding K} {d : Nat}

/-- A branch with its coordinates mapped. -/
def Branch1.mapped {α γ : Type} (e : α → γ) (b : Branch1 α d) : Branch1 γ d := ⟨b.splitDim, e b.leftMax, e b.rightMin⟩

/-- Coordinates up to `B` in absolute value. -/
def UpTo (B x : R.F) : Prop := -B.1 ≤ x.1 ∧ x.1 ≤ B.1

/-- Twice the bound of the coordinates, before and after scaling, is smaller than the largest number. -/
structure ScaleRoom (N : Num R.F) (s B : R.F) : Prop where
  nonneg : 0 ≤ B.1
  big : 2 * B.1 < N.big.1
  big' : s.1 * (2 * B.1) < N.big.1
  low : N.low.1 < -(2 * B.1)
  low' : N.low.1 < -(s.1 * (2 * B.1))

/-- Multiplication with `s` that leaves the two extreme numbers alone. -/
def scaleMap (N : Num R.F) (s x : R.F) : R.F := if x = N.low then N.low else if x = N.big then N.big else s * x

variable {s B : R.F} {low big : R.F}

theorem UpTo.sub_bounds {x y : R.F} (hx : UpTo B x) (hy : UpTo B y) : -(2 * B.1) ≤ (x - y).1 ∧ (x - y).1 ≤ 2 * B.1 := by
  have hB2 : R.rd (2 * B.1) = 2 * B.1 := by
    rw [two_mul]; exact R.double _ B.2
  rw [R.val_sub]
  constructor
  · have h : R.rd (-(2 * B.1)) = -(2 * B.1) := by rw [R.odd, hB2]
    rw [← h]
    exact R.mono _ _ (by linarith [hx.1, hy.2])
  · rw [← hB2]
    exact R.mono _ _ (by linarith [hx.2, hy.1])

theorem scaleMap_of_upTo {N : Num R.F} (h : ScaleRoom N s B) {x : R.F} (hx : UpTo B x) : scaleMap N s x = s * x := by
  unfold scaleMap
  have hB := h.nonneg
  rw [if_neg, if_neg]
  · rintro rfl; linarith [h.big, hx.2]
  · rintro rfl; linarith [h.low, hx.1]

/-- The construction on coordinates up to `B` is the same before and after scaling. -/
theorem scale_embeds (hs : R.Scales s.1) {rule : Rule}
    (hhalf : rule ≠ .median → ∀ x, R.rd x = x → R.rd (s.1 * (x / 2)) = s.1 * R.rd (x / 2))
    (h : ScaleRoom (R.num low big) s B) :
    Embeds rule (R.num low big) (R.num low big) (scaleMap (R.num low big) s)
      (fun x => UpTo B x ∨ x = low ∨ x = big) (UpTo B) := by
  have hB := h.nonneg
  have hpos := hs.pos
  have hbl : low.1 < -(2 * B.1) := h.low
  have hbl' : low.1 < -(s.1 * (2 * B.1)) := h.low'
  have hbb : 2 * B.1 < big.1 := h.big
  have hbb' : s.1 * (2 * B.1) < big.1 := h.big'
  have hlb : low.1 < big.1 := by linarith
  have hne : big ≠ low := by rintro rfl; exact lt_irrefl _ hlb
  have eV : ∀ x : R.F, UpTo B x → scaleMap (R.num low big) s x = s * x := fun x hx => scaleMap_of_upTo h hx
  have eL : scaleMap (R.num low big) s low = low := if_pos rfl
  have eB : scaleMap (R.num low big) s big = big := by
    unfold scaleMap
    rw [if_neg (show big ≠ (R.num low big).low from hne)]
    exact if_pos rfl
  have hsb : s.1 * B.1 ≤ s.1 * (2 * B.1) := mul_le_mul_of_nonneg_left (by linarith) hpos.le
  have sV : ∀ x : R.F, UpTo B x → -(s.1 * B.1) ≤ (s * x).1 ∧ (s * x).1 ≤ s.1 * B.1 := by
    intro x hx
    rw [hs.val]
    exact ⟨by rw [← mul_neg]; exact mul_le_mul_of_nonneg_left hx.1 hpos.le,
      mul_le_mul_of_nonneg_left hx.2 hpos.le⟩
  have hmid : ∀ x y : R.F, UpTo B x → UpTo B y → UpTo B (R.ofK ((y - x).1 / 2) + x) := by
    intro x y hx hy
    obtain ⟨h1, h2⟩ := R.mid x y
    constructor
    · refine le_trans ?_ (show _ ≤ (R.ofK ((y - x).1 / 2) + x).1 from h1)
      rcases min_choice x y with e | e <;> rw [e]
      exacts [hx.1, hy.1]
    · refine le_trans (show (R.ofK ((y - x).1 / 2) + x).1 ≤ _ from h2) ?_
      rcases max_choice x y with e | e <;> rw [e]
      exacts [hx.2, hy.2]
  have heq : rule ≠ .median → ∀ x y : R.F, UpTo B x → UpTo B y →
      R.ofK ((scaleMap (R.num low big) s y - scaleMap (R.num low big) s x).1 / 2) + scaleMap (R.num low big) s x =
        scaleMap (R.num low big) s (R.ofK ((y - x).1 / 2) + x) := by
    intro hr x y hx hy
    rw [eV x hx, eV y hy, eV _ (hmid x y hx hy), ← hs.mul_sub, hs.mul_add]
    congr 1
    apply Subtype.ext
    rw [hs.val, hs.val]
    show R.rd (s.1 * (y - x).1 / 2) = s.1 * R.rd ((y - x).1 / 2)
    rw [mul_div_assoc]
    exact hhalf hr _ (y - x).2
  have hside : ∀ x y : R.F, UpTo B x → UpTo B y → low < x - y ∧
      low < scaleMap (R.num low big) s x - scaleMap (R.num low big) s y := by
    intro x y hx hy
    have hb := (hx.sub_bounds hy).1
    refine ⟨by rw [R.lt_iff]; linarith, ?_⟩
    rw [eV x hx, eV y hy, ← hs.mul_sub, R.lt_iff, hs.val]
    have := mul_le_mul_of_nonneg_left hb hpos.le
    rw [mul_neg] at this
    linarith
  constructor
  · exact fun x hx => Or.inl hx
  · intro x y hx hy
    rcases hx with hx | rfl | rfl <;> rcases hy with hy | rfl | rfl
    · rw [eV x hx, eV y hy]; exact hs.increasing x y
    · rw [eV x hx, eL, R.lt_iff, R.lt_iff]
      exact iff_of_false (by linarith [(sV x hx).1]) (by linarith [hx.1])
    · rw [eV x hx, eB, R.lt_iff, R.lt_iff]
      exact iff_of_true (by linarith [(sV x hx).2]) (by linarith [hx.2])
    · rw [eV y hy, eL, R.lt_iff, R.lt_iff]
      exact iff_of_true (by linarith [(sV y hy).1]) (by linarith [hy.1])
    · rw [eL]
    · rw [eL, eB]
    · rw [eV y hy, eB, R.lt_iff, R.lt_iff]
      exact iff_of_false (by linarith [(sV y hy).2]) (by linarith [hy.2])
    · rw [eL, eB]
    · rw [eB]
  · exact Or.inr (Or.inl rfl)
  · exact eL
  · exact Or.inr (Or.inr rfl)
  · exact eB
  · exact fun x y hx hy => iff_of_true (hside x y hx hy).2 (hside x y hx hy).1
  · intro x y z w hx hy hz hw _
    rw [eV x hx, eV y hy, eV z hz, eV w hw, ← hs.mul_sub, ← hs.mul_sub]
    exact hs.increasing _ _
  · intro hr x y hx hy _
    exact ⟨hmid x y hx hy, heq (by rw [hr]; decide) x y hx hy⟩
  · intro hr x y z hx hy hz _
    have := heq (by rw [hr]; decide) x y hx hy
    show scaleMap (R.num low big) s z < R.ofK ((scaleMap (R.num low big) s y - scaleMap (R.num low big) s x).1 / 2) +
      scaleMap (R.num low big) s x ↔ z < R.ofK ((y - x).1 / 2) + x
    rw [this, eV z hz, eV _ (hmid x y hx hy)]
    exact hs.increasing _ _
  · intro hr x y z w hx hy _ _ _ _ _
    exact ⟨hmid x y hx hy, heq (by rw [hr]; decide) x y hx hy⟩

end Build

end Pico
