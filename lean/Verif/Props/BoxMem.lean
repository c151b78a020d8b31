import Verif.Proof.BoxMem
import Verif.Ref
import Mathlib.Order.Lattice

/-!
# C127: operations of boxes on memory
-/

namespace Pico.Props

/-! ## Specification -/

section
variable {α : Type}

/-- The memory has the coordinates of the point `x` at position `p`. -/
def PtAt {d : Nat} (m : List α) (p : Nat) (x : Pt α d) : Prop := ∀ i : Fin d, m[p + i]? = some (x i)

/-- The memory has the coordinates of the box `B` where the view `b` looks for them. -/
def BoxAt {d : Nat} (m : List α) (b : BoxView) (B : Box α d) : Prop :=
  b.size = d ∧ PtAt m b.min B.min ∧ PtAt m b.max B.max

/-- The two ends of the box do not overlap. -/
def Apart (b : BoxView) : Prop := b.min + b.size ≤ b.max ∨ b.max + b.size ≤ b.min

/-- `n` scalars at `x` do not begin before the `n` scalars at `p` and reach into them. -/
def NotInto (x p n : Nat) : Prop := x + n ≤ p ∨ p ≤ x

/-- Position `p` is none of the coordinates of the box. -/
def Outside (b : BoxView) (p : Nat) : Prop := ∀ i < b.size, p ≠ b.min + i ∧ p ≠ b.max + i

/-- `m'` is `m` except for the coordinates of the box. -/
def OnlyBox (b : BoxView) (m m' : List α) : Prop := m'.length = m.length ∧ ∀ p, Outside b p → m'[p]? = m[p]?

end

/-! ## The operations -/

section
variable {α : Type} [LT α] [DecidableLT α] {d : Nat} {m : List α} {b : BoxView} {B : Box α d}

omit [LT α] [DecidableLT α] in
/-- `f` with numbers instead of coordinates. -/
theorem exists_nat (hd : 0 < d) (f : Pt α d) : ∃ g : Nat → α, ∀ i : Fin d, g i = f i :=
  ⟨fun i => if h : i < d then f ⟨i, h⟩ else f ⟨0, hd⟩, fun i => by simp⟩

/-- C127 (`contains` for a point): the test on the memory is the one on the values, wherever the point lies. -/
theorem c127_contains {x : Pt α d} {p : Nat} (hb : BoxAt m b B) (hx : PtAt m p x) :
    b.containsPt m p = .ok (B.containsPt x) := by
  obtain ⟨rfl, h1, h2⟩ := hb
  refine allUp_eq _ fun i => ?_
  unfold BoxView.containsAt
  rw [memGet_ok (h1 i), memGet_ok (hx i), memGet_ok (h2 i)]
  show (if B.min i > x i then _ else _) = _
  by_cases hc : B.min i > x i
  · rw [if_pos hc, decide_eq_true hc]; rfl
  · rw [if_neg hc, decide_eq_false hc]; rfl

/-- C127 (`contains` for a box). -/
theorem c127_contains_box {b' : BoxView} {X : Box α d} (hb : BoxAt m b B) (hx : BoxAt m b' X) :
    b.containsBox m b' = .ok (B.containsBox X) := by
  unfold BoxView.containsBox Box.containsBox
  rw [c127_contains hb hx.2.1, c127_contains hb hx.2.2]
  show (if B.containsPt X.min = true then _ else _) = _
  cases B.containsPt X.min <;> rfl

/-- C127 (`max_side`): index and length of the longest side are those of the values. -/
theorem c127_max_side [Sub α] (N : Num α) (hb : BoxAt m b B) :
    b.maxSide N m = .ok ((B.maxSide N).1.map Fin.val, (B.maxSide N).2) := by
  obtain ⟨hs, h1, h2⟩ := hb
  unfold BoxView.maxSide Box.maxSide
  rw [hs]
  have key : ∀ k i (e : i + k = d) (st : Option (Fin d) × α),
      forUp (fun i st => (memGet m (b.max + i)).bind fun hi => (memGet m (b.min + i)).bind fun lo =>
        .ok (if hi - lo > st.2 then (some i, hi - lo) else st)) k i (st.1.map Fin.val, st.2) =
      .ok (let r := ((List.finRange k).map fun j : Fin k => (⟨i + j, by omega⟩ : Fin d)).foldl (Box.maxSideStep B) st
        (r.1.map Fin.val, r.2)) := by
    intro k
    induction k with
    | zero => intro i _ st; rfl
    | succ k ih =>
      intro i e st
      rw [forUp, memGet_ok (h2 ⟨i, by omega⟩), memGet_ok (h1 ⟨i, by omega⟩)]
      show forUp _ k (i + 1) (if B.max ⟨i, by omega⟩ - B.min ⟨i, by omega⟩ > st.2 then _ else _) = _
      have hst : (if B.max ⟨i, by omega⟩ - B.min ⟨i, by omega⟩ > st.2 then
          (some i, B.max ⟨i, by omega⟩ - B.min ⟨i, by omega⟩) else (st.1.map Fin.val, st.2)) =
          ((Box.maxSideStep B st ⟨i, by omega⟩).1.map Fin.val, (Box.maxSideStep B st ⟨i, by omega⟩).2) := by
        unfold Box.maxSideStep
        dsimp only
        split <;> rfl
      rw [hst, ih (i + 1) (by omega), List.finRange_succ]
      simp only [List.map_cons, List.map_map, List.foldl_cons, Function.comp_def, Fin.val_succ, Fin.val_zero, Nat.add_zero]
      have hf : (fun j : Fin k => (⟨i + 1 + j, by omega⟩ : Fin d)) = fun j : Fin k => ⟨i + (j + 1), by omega⟩ := by
        funext j
        congr 1
        omega
      rw [hf]
  have := key d 0 (by omega) (none, N.low)
  simpa using this

omit [LT α] [DecidableLT α] in
/-- C127 (`fill_inverse_max`): afterwards the box is the inverted maximum, and nothing else has changed. -/
theorem c127_fill_partial (N : Num α) (hb : BoxAt m b B) (ha : Apart b) :
    ∃ m', b.fillInverseMax N m = .ok m' ∧ BoxAt m' b (Box.inverseMax N : Box α d) ∧ OnlyBox b m m' := by
  obtain ⟨rfl, h1, h2⟩ := hb
  let P : Nat → List α → Prop := fun k m' =>
    m'.length = m.length ∧ (∀ i < b.size, ∃ y, m'[b.min + i]? = some y ∧ (i < k → y = N.big)) ∧
      (∀ i < b.size, ∃ y, m'[b.max + i]? = some y ∧ (i < k → y = N.low)) ∧
      ∀ p, (∀ i < k, p ≠ b.min + i ∧ p ≠ b.max + i) → m'[p]? = m[p]?
  have hstep : ∀ k < b.size, ∀ m1, P k m1 → ∃ m', ((memSet m1 (b.min + k) N.big).bind fun m =>
      memSet m (b.max + k) N.low) = .ok m' ∧ P (k + 1) m' := by
    rintro k hk m1 ⟨hl, hmin, hmax, hrest⟩
    obtain ⟨y, ey, -⟩ := hmin k hk
    obtain ⟨z, ez, -⟩ := hmax k hk
    have hne : b.max + k ≠ b.min + k := by rcases ha with h | h <;> omega
    have ez' : (m1.set (b.min + k) N.big)[b.max + k]? = some z := by rw [set_ne hne, ez]
    refine ⟨(m1.set (b.min + k) N.big).set (b.max + k) N.low, ?_, ?_, fun i hi => ?_, fun i hi => ?_, fun p hp => ?_⟩
    · rw [memSet_ok ey]; exact memSet_ok ez' _
    · rw [List.length_set, List.length_set, hl]
    · by_cases hik : i = k
      · refine ⟨N.big, ?_, fun _ => rfl⟩
        rw [hik, set_ne (Ne.symm hne), set_self ey]
      · obtain ⟨y', e', h'⟩ := hmin i hi
        refine ⟨y', ?_, fun hlt => h' (by omega)⟩
        rw [set_ne (by rcases ha with h | h <;> omega), set_ne (by omega), e']
    · by_cases hik : i = k
      · refine ⟨N.low, ?_, fun _ => rfl⟩
        rw [hik, set_self ez']
      · obtain ⟨y', e', h'⟩ := hmax i hi
        refine ⟨y', ?_, fun hlt => h' (by omega)⟩
        rw [set_ne (by omega), set_ne (by rcases ha with h | h <;> omega), e']
    · rw [set_ne (hp k (Nat.lt_succ_self k)).2, set_ne (hp k (Nat.lt_succ_self k)).1]
      exact hrest p fun i hi => hp i (Nat.lt_succ_of_lt hi)
  obtain ⟨m', e, hP⟩ := forUp_inv P b.size hstep b.size 0 (by omega) m
    ⟨rfl, fun i hi => ⟨_, h1 ⟨i, hi⟩, nofun⟩, fun i hi => ⟨_, h2 ⟨i, hi⟩, nofun⟩, fun _ _ => rfl⟩
  refine ⟨m', e, ⟨rfl, fun i => ?_, fun i => ?_⟩, hP.1, hP.2.2.2⟩
  · obtain ⟨y, e, hy⟩ := hP.2.1 i i.2
    rw [e, hy i.2]; rfl
  · obtain ⟨y, e, hy⟩ := hP.2.2.1 i i.2
    rw [e, hy i.2]; rfl

theorem notInto_ne {x p n i k : Nat} (h : NotInto x p n) (hi : i < k) (hk : k < n) : x + k ≠ p + i := by
  rcases h with h | h <;> omega

/-- The end of both `fit`s. -/
theorem Fitted.boxAt {m0 : List α} {x y : Pt α d} {v w lo hi : Nat → α} (hs : b.size = d)
    (hv : ∀ i : Fin d, v i = x i) (hw : ∀ i : Fin d, w i = y i) (hlo : ∀ i : Fin d, lo i = B.min i)
    (hhi : ∀ i : Fin d, hi i = B.max i) {m' : List α} (h : Fitted b m0 lo hi v w b.size m') :
    BoxAt m' b (B.fitBox ⟨x, y⟩) ∧ OnlyBox b m0 m' := by
  refine ⟨⟨hs, fun i => ?_, fun i => ?_⟩, h.length, h.rest⟩
  · rw [h.min i (hs ▸ i.2), if_pos (hs ▸ i.2), hv, hlo]; rfl
  · rw [h.max i (hs ▸ i.2), if_pos (hs ▸ i.2), hw, hhi]; rfl

/-- C127 (`fit` for a point): afterwards the box is the fitted one, and nothing else has changed.  The point may lie
inside the box, for example be one of its ends, or overlap an end, unless it begins before it. -/
theorem c127_fit_partial {x : Pt α d} {p : Nat} (hb : BoxAt m b B) (ha : Apart b) (hx : PtAt m p x)
    (hmin : NotInto p b.min b.size) (hmax : NotInto p b.max b.size) :
    ∃ m', b.fitPt p m = .ok m' ∧ BoxAt m' b (B.fitPt x) ∧ OnlyBox b m m' := by
  rcases Nat.eq_zero_or_pos d with rfl | hd
  · refine ⟨m, ?_, ⟨hb.1, fun i => i.elim0, fun i => i.elim0⟩, rfl, fun _ _ => rfl⟩
    unfold BoxView.fitPt
    rw [hb.1]; rfl
  obtain ⟨v, hv⟩ := exists_nat hd x
  obtain ⟨lo, hlo⟩ := exists_nat hd B.min
  obtain ⟨hi, hhi⟩ := exists_nat hd B.max
  obtain ⟨hs, h1, h2⟩ := hb
  have hstep : ∀ k < b.size, ∀ m1, Fitted b m lo hi v v k m1 →
      ∃ m', b.fitPtAt p k m1 = .ok m' ∧ Fitted b m lo hi v v (k + 1) m' := by
    intro k hk m1 hm1
    have hp : m1[p + k]? = some (v k) := by
      rw [hm1.rest _ fun i hi' => ⟨notInto_ne hmin hi' hk, notInto_ne hmax hi' hk⟩, hx ⟨k, hs ▸ hk⟩, ← hv]
    refine hm1.step ha hk hp fun m2 ho hor => ?_
    by_cases hc : p + k = b.min + k
    · rw [hc]
      rcases hor with h | h
      · exact h
      · rw [h, ← hc, hp]
    · rw [ho _ hc, hp]
  obtain ⟨m', e, hF⟩ := forUp_inv (fun k m' => Fitted b m lo hi v v k m') b.size hstep b.size 0 (by omega) m
    ⟨rfl, fun i hi' => by rw [h1 ⟨i, hs ▸ hi'⟩, if_neg (Nat.not_lt_zero i), ← hlo],
      fun i hi' => by rw [h2 ⟨i, hs ▸ hi'⟩, if_neg (Nat.not_lt_zero i), ← hhi], fun _ _ => rfl⟩
  exact ⟨m', e, Fitted.boxAt hs hv hv hlo hhi hF⟩

/-- C127 (`fit` for a box). -/
theorem c127_fit_box_partial {b' : BoxView} {X : Box α d} (hb : BoxAt m b B) (ha : Apart b) (hx : BoxAt m b' X)
    (h11 : NotInto b'.min b.min b.size) (h12 : NotInto b'.min b.max b.size) (h21 : NotInto b'.max b.min b.size)
    (h22 : NotInto b'.max b.max b.size) (hne : b'.max ≠ b.min) :
    ∃ m', b.fitBox b' m = .ok m' ∧ BoxAt m' b (B.fitBox X) ∧ OnlyBox b m m' := by
  rcases Nat.eq_zero_or_pos d with rfl | hd
  · refine ⟨m, ?_, ⟨hb.1, fun i => i.elim0, fun i => i.elim0⟩, rfl, fun _ _ => rfl⟩
    unfold BoxView.fitBox
    rw [hb.1]; rfl
  obtain ⟨v, hv⟩ := exists_nat hd X.min
  obtain ⟨w, hw⟩ := exists_nat hd X.max
  obtain ⟨lo, hlo⟩ := exists_nat hd B.min
  obtain ⟨hi, hhi⟩ := exists_nat hd B.max
  obtain ⟨hs, h1, h2⟩ := hb
  obtain ⟨-, hx1, hx2⟩ := hx
  have hstep : ∀ k < b.size, ∀ m1, Fitted b m lo hi v w k m1 →
      ∃ m', b.fitBoxAt b' k m1 = .ok m' ∧ Fitted b m lo hi v w (k + 1) m' := by
    intro k hk m1 hm1
    have hp : m1[b'.min + k]? = some (v k) := by
      rw [hm1.rest _ fun i hi' => ⟨notInto_ne h11 hi' hk, notInto_ne h12 hi' hk⟩, hx1 ⟨k, hs ▸ hk⟩, ← hv]
    have hq : m1[b'.max + k]? = some (w k) := by
      rw [hm1.rest _ fun i hi' => ⟨notInto_ne h21 hi' hk, notInto_ne h22 hi' hk⟩, hx2 ⟨k, hs ▸ hk⟩, ← hw]
    refine hm1.step ha hk hp fun m2 ho _ => ?_
    rw [ho _ (by omega), hq]
  obtain ⟨m', e, hF⟩ := forUp_inv (fun k m' => Fitted b m lo hi v w k m') b.size hstep b.size 0 (by omega) m
    ⟨rfl, fun i hi' => by rw [h1 ⟨i, hs ▸ hi'⟩, if_neg (Nat.not_lt_zero i), ← hlo],
      fun i hi' => by rw [h2 ⟨i, hs ▸ hi'⟩, if_neg (Nat.not_lt_zero i), ← hhi], fun _ _ => rfl⟩
  exact ⟨m', e, Fitted.boxAt hs hv hw hlo hhi hF⟩

end

/-- C127 in an order: what the operations mean for the numbers in the memory. -/
theorem c127_fit_order_partial {α : Type} [LinearOrder α] {d : Nat} {m : List α} {b : BoxView} {B : Box α d} {x : Pt α d}
    {p : Nat} (hb : BoxAt m b B) (ha : Apart b) (hx : PtAt m p x) (hmin : NotInto p b.min b.size)
    (hmax : NotInto p b.max b.size) :
    ∃ m', b.fitPt p m = .ok m' ∧ PtAt m' b.min (fun i => min (B.min i) (x i)) ∧
      PtAt m' b.max (fun i => max (B.max i) (x i)) ∧ OnlyBox b m m' := by
  obtain ⟨m', e, ⟨-, h1, h2⟩, ho⟩ := c127_fit_partial hb ha hx hmin hmax
  refine ⟨m', e, fun i => ?_, fun i => ?_, ho⟩
  · rw [h1 i]
    show some (if x i < B.min i then x i else B.min i) = some (min (B.min i) (x i))
    rcases lt_or_ge (x i) (B.min i) with h | h
    · rw [if_pos h, min_eq_right h.le]
    · rw [if_neg (not_lt.2 h), min_eq_left h]
  · rw [h2 i]
    show some (if B.max i < x i then x i else B.max i) = some (max (B.max i) (x i))
    rcases lt_or_ge (B.max i) (x i) with h | h
    · rw [if_pos h, max_eq_right h.le]
    · rw [if_neg (not_lt.2 h), max_eq_left h]

/-- A fitted point is contained, also when it was inside the memory of the box. -/
theorem c127_fit_contains_partial {α : Type} [LinearOrder α] {d : Nat} {m : List α} {b : BoxView} {B : Box α d}
    {x : Pt α d} {p q : Nat} (hb : BoxAt m b B) (ha : Apart b) (hx : PtAt m p x) (hmin : NotInto p b.min b.size)
    (hmax : NotInto p b.max b.size) :
    ∃ m', b.fitPt p m = .ok m' ∧ (PtAt m' q x → b.containsPt m' q = .ok true) := by
  obtain ⟨m', e, hB, -⟩ := c127_fit_partial hb ha hx hmin hmax
  refine ⟨m', e, fun hq => ?_⟩
  rw [c127_contains hB hq]
  congr 1
  unfold Box.containsPt
  rw [List.all_eq_true]
  intro i _
  show (!(decide ((if x i < B.min i then x i else B.min i) > x i) ||
    decide ((if x i > B.max i then x i else B.max i) < x i))) = true
  rw [Bool.not_eq_true', Bool.or_eq_false_iff, decide_eq_false_iff_not, decide_eq_false_iff_not]
  constructor
  · split
    · exact lt_irrefl _
    · rename_i h; exact h
  · split
    · exact lt_irrefl _
    · rename_i h; exact h

/-! ## Where the statement fails -/

/-- C127 fails for a point that begins before an end of the box and reaches into it: the second coordinate of the
point is overwritten before it is read. -/
theorem c127_alias_false :
    let m : List Int := [0, 5, 3, 9, 9]
    let b : BoxView := ⟨1, 3, 2⟩
    PtAt m 0 ![0, 5] ∧ BoxAt m b (⟨![5, 3], ![9, 9]⟩ : Box Int 2) ∧ Apart b ∧
      ∃ m', b.fitPt 0 m = .ok m' ∧ BoxAt m' b (⟨![0, 0], ![9, 9]⟩ : Box Int 2) ∧
        (⟨![5, 3], ![9, 9]⟩ : Box Int 2).fitPt ![0, 5] ≠ ⟨![0, 0], ![9, 9]⟩ := by
  refine ⟨by unfold PtAt; decide, ⟨rfl, by unfold PtAt; decide, by unfold PtAt; decide⟩, by unfold Apart; decide,
    [0, 0, 0, 9, 9], by decide, ⟨rfl, by unfold PtAt; decide, by unfold PtAt; decide⟩, fun h => ?_⟩
  have := congrFun (congrArg Box.min h) 1
  revert this
  decide

/-- C127 fails for a view whose ends are the same memory: a fitted point is not contained. -/
theorem c127_same_false :
    let b : BoxView := .ofSize none 0 0 1
    ∃ m', b.fitPt 1 ([5, 7, 9] : List Int) = .ok m' ∧ ∃ m'', b.fitPt 2 m' = .ok m'' ∧
      b.containsPt m'' 1 = .ok false :=
  ⟨[7, 7, 9], by decide, [9, 7, 9], by decide, by decide⟩

section
variable {α : Type}

/-- C127: a view made from two pointers and a size shows the box there; a size known at compile time replaces the
argument. -/
theorem c127_view {d : Nat} {m : List α} {p q : Nat} {B : Box α d} (h1 : PtAt m p B.min) (h2 : PtAt m q B.max)
    (size : Nat) :
    BoxAt m (.ofSize none p q d) B ∧ BoxAt m (.ofSize (some d) p q size) B ∧ BoxAt m (.ofPointers (some d) p q) B :=
  ⟨⟨rfl, h1, h2⟩, ⟨rfl, h1, h2⟩, ⟨rfl, h1, h2⟩⟩

/-- C127 fails for a view made from two pointers without a size known at compile time: it has 2^64 - 1 coordinates,
and filling it leaves every memory that is smaller. -/
theorem c127_pointers_false (N : Num α) (m : List α) (p q : Nat) (h : m.length < 2 ^ 64 - 1) :
    (BoxView.ofPointers none p q).fillInverseMax N m = .ub := by
  have key : ∀ k i (m : List α), m.length ≤ p + i + k →
      forUp (fun i m => (memSet m (p + i) N.big).bind fun m => memSet m (q + i) N.low) (k + 1) i m = .ub := by
    intro k
    induction k with
    | zero =>
      intro i m hm
      rw [forUp, memSet, if_neg (by omega)]
      rfl
    | succ k ih =>
      intro i m hm
      rw [forUp, memSet]
      by_cases h1 : p + i < m.length
      · rw [if_pos h1]
        show Outcome.bind (memSet (m.set (p + i) N.big) (q + i) N.low) _ = _
        unfold memSet
        by_cases h2 : q + i < (m.set (p + i) N.big).length
        · rw [if_pos h2]
          exact ih (i + 1) _ (by rw [List.length_set, List.length_set]; omega)
        · rw [if_neg h2]; rfl
      · rw [if_neg h1]; rfl
  show forUp _ dynamicExtent 0 m = .ub
  obtain ⟨k, hk⟩ : ∃ k, dynamicExtent = k + 1 := ⟨2 ^ 64 - 2, by unfold dynamicExtent; omega⟩
  rw [hk]
  exact key k 0 m (by unfold dynamicExtent at hk; omega)

/-- C127: a box of a size known at run time has exactly its coordinates, all zero, if there is memory for them. -/
theorem c127_dynamic_partial [Zero α] {vmax size : Nat} (junk : List α) (h : 2 * size ≤ vmax) (h64 : 2 * size < 2 ^ 64) :
    ∃ o, BoxMem.ofSize none vmax junk size = .ok o ∧ BoxAt o.coords o.view (⟨fun _ => 0, fun _ => 0⟩ : Box α size) ∧
      Apart o.view ∧ o.coords.length = 2 * size := by
  have e : size * 2 % 2 ^ 64 = 2 * size := by rw [Nat.mul_comm, Nat.mod_eq_of_lt h64]
  unfold BoxMem.ofSize
  simp only [e, if_pos h]
  refine ⟨_, rfl, ⟨rfl, fun i => ?_, fun i => ?_⟩, Or.inl (Nat.le_of_eq (Nat.zero_add _)), by simp⟩
  · show (List.replicate (2 * size) (0 : α))[0 + (i : Nat)]? = some 0
    rw [List.getElem?_replicate, if_pos (by omega)]
  · show (List.replicate (2 * size) (0 : α))[size + (i : Nat)]? = some 0
    rw [List.getElem?_replicate, if_pos (by omega)]

/-- C127 (`make_inverse_max`) for a size known at run time. -/
theorem c127_make_partial [Zero α] (N : Num α) {vmax size : Nat}
    (junk : List α) (h : 2 * size ≤ vmax) (h64 : 2 * size < 2 ^ 64) :
    ∃ o, BoxMem.makeInverseMax N none vmax junk size = .ok o ∧
      BoxAt o.coords o.view (Box.inverseMax N : Box α size) ∧ o.coords.length = 2 * size := by
  obtain ⟨o, e, hb, ha, hl⟩ := c127_dynamic_partial junk h h64
  obtain ⟨m', e', hb', hl', -⟩ := c127_fill_partial N hb ha
  refine ⟨⟨m', o.size⟩, ?_, hb', hl'.trans hl⟩
  unfold BoxMem.makeInverseMax
  rw [e]
  show (match o.view.fillInverseMax N o.coords with | .ok m => _ | .ub => _ | .oof => _) = _
  rw [e']

/-- C127 (`make_inverse_max`) for a size known at compile time: the argument is not used, also if it is another. -/
theorem c127_make_static [Zero α] (N : Num α) (vmax size : Nat) {D : Nat}
    (junk : List α) (hj : junk.length = 2 * D) :
    ∃ o, BoxMem.makeInverseMax N (some D) vmax junk size = .ok o ∧
      BoxAt o.coords o.view (Box.inverseMax N : Box α D) ∧ o.coords.length = 2 * D := by
  have hb : BoxAt junk (⟨junk, D⟩ : BoxMem α).view
      (⟨fun i => junk[(i : Nat)]'(by omega), fun i => junk[D + (i : Nat)]'(by omega)⟩ : Box α D) := by
    refine ⟨rfl, fun i => ?_, fun i => ?_⟩
    · show junk[0 + (i : Nat)]? = _
      rw [Nat.zero_add, List.getElem?_eq_getElem (by omega)]
    · show junk[D + (i : Nat)]? = _
      rw [List.getElem?_eq_getElem (by omega)]
  obtain ⟨m', e', hb', hl', -⟩ := c127_fill_partial N hb (Or.inl (Nat.le_of_eq (Nat.zero_add _)))
  refine ⟨⟨m', D⟩, ?_, hb', hl'.trans hj⟩
  unfold BoxMem.makeInverseMax BoxMem.ofSize
  show (match (⟨junk, D⟩ : BoxMem α).view.fillInverseMax N junk with | .ok m => _ | .ub => _ | .oof => _) = _
  rw [e']

/-- C127 fails for the default constructor when the size is not known at compile time: it asks for 2^65 - 2 scalars,
counted as 2^64 - 2, and throws. -/
theorem c127_default_false [Zero α] {vmax : Nat} (h : vmax < 2 ^ 63) (junk : List α) :
    BoxMem.default none vmax junk = .throws := by
  unfold BoxMem.default BoxMem.ofSize dynamicExtent
  simp only [Option.getD_none]
  rw [if_neg (by omega)]

/-- C127 fails for huge sizes: `size * 2` overflows, and the box of `2^63` coordinates has none. -/
theorem c127_wrap_false [Zero α] (vmax : Nat) (junk : List α) :
    ∃ o, BoxMem.ofSize none vmax junk (2 ^ 63) = .ok o ∧ o.size = 2 ^ 63 ∧ o.coords = [] := by
  refine ⟨⟨[], 2 ^ 63⟩, ?_, rfl, rfl⟩
  unfold BoxMem.ofSize
  simp only [show 2 ^ 63 * 2 % 2 ^ 64 = 0 by decide, Nat.zero_le, if_true, List.replicate_zero]

/-- C127 fails for a box of run time size that was moved from: it still has its size, but no coordinates. -/
theorem c127_moved_false [LT α] [DecidableLT α] (o : BoxMem α) (h : 0 < o.size) (p : Nat)
    (N : Num α) :
    let o' := o.movedFrom none
    o'.size = o.size ∧ o'.view.containsPt o'.coords p = .ub ∧ o'.view.fillInverseMax N o'.coords = .ub := by
  obtain ⟨n, hn⟩ := Nat.exists_eq_succ_of_ne_zero (Nat.ne_of_gt h)
  refine ⟨rfl, ?_, ?_⟩
  · show allUp _ o.size 0 = _
    rw [hn]; rfl
  · show forUp _ o.size 0 _ = _
    rw [hn]; rfl

/-- C127: a box of a size known at compile time that was moved from is unchanged. -/
theorem c127_moved_static (o : BoxMem α) (D : Nat) : o.movedFrom (some D) = o := rfl

end

/-! ## Examples -/

/-- Fitting the lower end of the box itself, in memory with something before and behind. -/
example : (BoxView.mk 1 3 2).fitPt 1 ([-7, 5, 3, 4, 9, -7] : List Int) = .ok [-7, 5, 3, 5, 9, -7] := by decide

example : PtAt ([-7, 5, 3, 4, 9, -7] : List Int) 1 ![5, 3] ∧ NotInto 1 1 2 ∧ NotInto 1 3 2 ∧
    BoxAt ([-7, 5, 3, 4, 9, -7] : List Int) ⟨1, 3, 2⟩ (⟨![5, 3], ![4, 9]⟩ : Box Int 2) ∧ Apart ⟨1, 3, 2⟩ :=
  ⟨by unfold PtAt; decide, Or.inr (by decide), Or.inl (by decide),
    ⟨rfl, by unfold PtAt; decide, by unfold PtAt; decide⟩, Or.inl (by decide)⟩

/-- Fitting one box to another one behind it. -/
example : (BoxView.mk 0 2 2).fitBox ⟨4, 6, 2⟩ ([0, 0, 0, 0, -1, 2, 1, 3] : List Int) =
    .ok [-1, 0, 1, 3, -1, 2, 1, 3] := by decide

/-- `box_test.cpp:81-107` for `box<float, dynamic_extent>`: a point, then a box (4 coordinates; 0, then -1 and 1). -/
example : ∃ o, BoxMem.makeInverseMax Ref.intNum none 100 [] 4 = .ok o ∧
    (o.view.fitPt 8 (o.coords ++ [0, 0, 0, 0, -1, -1, -1, -1, 1, 1, 1, 1])).bind
      (fun m => o.view.fitBox ⟨12, 16, 4⟩ m) =
    .ok ([-1, -1, -1, -1, 1, 1, 1, 1] ++ [0, 0, 0, 0, -1, -1, -1, -1, 1, 1, 1, 1]) :=
  ⟨_, rfl, by decide +kernel⟩

/-- The longest side, the first of two. -/
example : (BoxView.mk 0 3 3).maxSide Ref.intNum ([0, 0, 0, 1, 4, 4] : List Int) = .ok (some 1, 4) := by decide

end Pico.Props
