import Verif.SpecCoverShape
import Verif.Proof.CoverInv
import Verif.Proof.CoverRegular
import Mathlib.Data.Fintype.Pi
import Mathlib.Data.Fintype.Card
import Mathlib.Data.Fintype.BigOperators
import Mathlib.Algebra.Order.Floor.Semiring
import Mathlib.Tactic.Linarith
import Mathlib.Tactic.Positivity
import Mathlib.Tactic.FieldSimp

/-!
# The height and the degree of a cover tree
-/

namespace Pico

namespace Cover
open Spec Outcome

/-! ### The level of the root -/

section Level
variable {α L : Type} [LinearOrder α] {B : Leveling α L} {P : StdPart (CNode L Unit)} {dist : Nat → Nat → α}

omit [LinearOrder α] in
@[simp] theorem level_nodeToParent (p c : CNode L Unit) : (nodeToParent B p c).level = B.up c.level := by cases p; rfl

omit [LinearOrder α] in
@[simp] theorem index_nodeToParent (p c : CNode L Unit) : (nodeToParent B p c).index = p.index := by cases p; rfl

theorem removeLeaf_level (t : CNode L Unit) : Returns (removeLeaf t) fun r => r.2.level = t.level := by
  obtain ⟨i, l, m, cs⟩ := t
  rw [removeLeaf]
  exact Returns.bind (P := fun _ => True) (fun _ _ => trivial) fun _ _ => Returns.ok rfl

theorem insertCovered_root (fuel : Nat) (t n : CNode L Unit) :
    Returns (insertCovered B P dist fuel t n) fun r => r.level = t.level ∧ r.index = t.index := by
  cases fuel with
  | zero => intro a h; cases h
  | succ fuel =>
    rw [insertCovered]
    split
    · exact Returns.ok ⟨by simp, by simp⟩
    · dsimp only
      split
      · intro a h; cases h
      · split
        · refine Returns.bind (P := fun _ => True) (fun _ _ => trivial) fun m _ => Returns.ok ?_
          cases t; exact ⟨rfl, rfl⟩
        · rw [rebalance]
          refine Returns.bind (P := fun _ => True) (fun _ _ => trivial) fun q _ =>
            Returns.bind (P := fun _ => True) (fun _ _ => trivial) fun c _ => Returns.ok ?_
          cases t; exact ⟨rfl, rfl⟩

theorem raise_level {K : Type} [Field K] [LinearOrder K] (b : K) (cl fl : K → ℤ) (k : ℤ) (fuel : Nat) :
    ∀ (t : CNode (WithBot ℤ) Unit) (n : ℤ), t.level = (n : WithBot ℤ) →
      Returns (raise (Leveling.exact b cl fl) (k : WithBot ℤ) fuel t) fun r =>
        ∃ n' : ℤ, r.level = (n' : WithBot ℤ) ∧ (n' = n ∨ n' ≤ k) := by
  induction fuel with
  | zero => intro t n _ a h; cases h
  | succ fuel ih =>
    intro t n hn
    rw [raise]
    split
    · rename_i hlt
      refine Returns.bind (removeLeaf_level t) fun r hr => ?_
      have hk : n < k := by
        have := of_decide_eq_true hlt
        rw [hn] at this
        exact_mod_cast this
      refine (ih (nodeToParent _ r.1 r.2) (n + 1) (by
        rw [level_nodeToParent, hr, hn]; rfl)).imp ?_
      rintro a ⟨n', h1, h2⟩
      refine ⟨n', h1, Or.inr ?_⟩
      omega
    · exact Returns.ok ⟨n, hn, Or.inl rfl⟩

end Level

section Root
variable {K : Type} [Field K] [LinearOrder K] [IsStrictOrderedRing K] {b D : K} {cl fl : K → ℤ}
  {P : StdPart (CNode (WithBot ℤ) Unit)} {dist : Nat → Nat → K} {S : List Nat}

/-- The level of a root is bounded by the distances. -/
def RootLow (b D : K) (S : List Nat) (t : CNode (WithBot ℤ) Unit) : Prop :=
  t.index ∈ S ∧ ∃ n : ℤ, t.level = (n : WithBot ℤ) ∧ b ^ (n - 1) < b * D

theorem insert_low (hb : 2 ≤ b) (hl : IsLogs b cl fl) (hD : ∀ i ∈ S, ∀ j ∈ S, dist i j ≤ D) (fuel : Nat)
    (t : CNode (WithBot ℤ) Unit) (k : Nat) (hk : k ∈ S) (ht : RootLow b D S t) :
    Returns (insert (Leveling.exact b cl fl) P dist fuel t (.node k (Leveling.exact b cl fl).unset () []))
      (RootLow b D S) := by
  obtain ⟨hi, n, hn, hlow⟩ := ht
  have hb0 : (0 : K) < b := by linarith
  rw [insert]
  split
  · rename_i hgt
    have hc : (Leveling.exact b cl fl).cover t.level = b ^ n := by rw [hn]; rfl
    have hidx : (CNode.node k (Leveling.exact b cl fl).unset () [] : CNode (WithBot ℤ) Unit).index = k := rfl
    rw [hc, hidx] at hgt ⊢
    have hpos : 0 < b ^ n := zpow_pos hb0 n
    have hd := hD k hk t.index hi
    have hlev : (Leveling.exact b cl fl).floorLevel (b ^ n + dist k t.index) =
        ((fl (b ^ n + dist k t.index) : ℤ) : WithBot ℤ) := by
      show (if _ ≤ _ then _ else _) = _
      rw [if_neg (by linarith)]
    rw [hlev]
    refine Returns.bind (raise_level b cl fl _ fuel t n hn) ?_
    rintro r ⟨n', h1, h2⟩
    refine Returns.ok ⟨by rw [index_nodeToParent]; exact hk, n' + 1, by rw [level_nodeToParent, h1]; rfl, ?_⟩
    rw [add_sub_cancel_right]
    rcases h2 with rfl | h2
    · nlinarith
    · obtain ⟨-, -, h3, -⟩ := hl (b ^ n + dist k t.index) (by linarith)
      have : b ^ n' ≤ b ^ fl (b ^ n + dist k t.index) := zpow_le_zpow_right₀ (by linarith) h2
      nlinarith
  · refine (insertCovered_root fuel t _).imp ?_
    rintro r ⟨h1, h2⟩
    exact ⟨by rw [h2]; exact hi, n, by rw [h1, hn], hlow⟩

theorem insertAll_low (hb : 2 ≤ b) (hl : IsLogs b cl fl) (hD : ∀ i ∈ S, ∀ j ∈ S, dist i j ≤ D) (fuel : Nat)
    (i j : Nat) (rest : List Nat) (hS : ∀ k ∈ i :: j :: rest, k ∈ S) (hij : 0 < dist i j) :
    Returns (insertAll (Leveling.exact b cl fl) P dist fuel (i :: j :: rest)) (RootLow b D S) := by
  rw [insertAll_two]
  refine Returns.bind (P := fun st => RootLow b D S st.1) ?_ fun st h => Returns.ok h
  refine (Returns.foldl (fun l (st : CNode (WithBot ℤ) Unit × Nat) => (∀ k ∈ l, k ∈ S) ∧ RootLow b D S st.1) _ _
    ⟨fun k hk => hS k (by simp [hk]), ?_⟩ ?_).imp fun st h => h.2
  · refine ⟨hS i (by simp), cl (dist i j), ?_, ?_⟩
    · show (if _ ≤ _ then _ else _) = _
      rw [if_neg (not_le.2 hij)]
    · have := hD i (hS i (by simp)) j (hS j (by simp))
      obtain ⟨h1, -⟩ := hl _ hij
      nlinarith
  · rintro k l st ⟨h1, h2⟩
    refine Returns.bind (P := fun c => c.1 = .node k (Leveling.exact b cl fl).unset () []) ?_ ?_
    · rw [createNode]
      exact Returns.bind (P := fun _ => True) (fun _ _ => trivial) fun _ _ => Returns.ok rfl
    · rintro c hc
      rw [hc]
      refine Returns.bind (insert_low hb hl hD fuel st.1 k (h1 k (by simp)) h2) fun t ht => Returns.ok ?_
      exact ⟨fun k hk => h1 k (by simp [hk]), ht⟩

end Root

/-! ### The height -/

section Height
variable {L γ : Type}

theorem everywhere_and {p p' : CNode L γ → Prop} : ∀ {c : CNode L γ}, Everywhere p c → Everywhere p' c →
    Everywhere (fun c => p c ∧ p' c) c := by
  have key : ∀ (n : Nat) (c : CNode L γ), size c ≤ n → Everywhere p c → Everywhere p' c →
      Everywhere (fun c => p c ∧ p' c) c := by
    intro n
    induction n with
    | zero => intro c hc; have := size_pos c; omega
    | succ n ih =>
      intro c hc h h'
      obtain ⟨h1, h2⟩ := everywhere_iff.1 h
      obtain ⟨h1', h2'⟩ := everywhere_iff.1 h'
      refine everywhere_iff.2 ⟨⟨h1, h1'⟩, fun m hm => ih m ?_ (h2 m hm) (h2' m hm)⟩
      have h3 := wt_mem (fun _ => 1) hm
      have h4 := wt_eq (fun _ => 1) c
      simp only [size] at *
      omega
  intro c h h'
  exact key _ c le_rfl h h'

theorem levelCount_node (c : CNode L γ) : levelCount c = levelCountList c.children + 1 := by
  cases c; rw [levelCount]; rfl

theorem nodup_of_mem {cs : List (CNode L γ)} (h : (pointsList cs).Nodup) {m : CNode L γ} (hm : m ∈ cs) :
    (points m).Nodup := by
  induction cs with
  | nil => cases hm
  | cons c cs ih =>
    rw [pointsList, List.nodup_append] at h
    rcases List.mem_cons.1 hm with rfl | hm
    · exact h.1
    · exact ih h.2.1 hm

theorem levelCountList_le {cs : List (CNode L γ)} {k : Nat} :
    levelCountList cs ≤ k ↔ ∀ c ∈ cs, levelCount c ≤ k := by
  induction cs with
  | nil => simp [levelCountList]
  | cons c cs ih => rw [levelCountList, max_le_iff, ih]; simp

variable {K : Type} [Field K] [LinearOrder K] [IsStrictOrderedRing K] {b s : K} {dist : Nat → Nat → K}

theorem levelCount_le (hb : 1 < b) (hs : 0 < s) (k : Nat) : ∀ (c : CNode (WithBot ℤ) γ) (n : ℤ),
    c.level = (n : WithBot ℤ) → LevelsDescend c → Covers b dist c → (points c).Nodup →
    (∀ i ∈ points c, ∀ j ∈ points c, i ≠ j → s ≤ dist i j) → b ^ n < s * b ^ k → levelCount c ≤ k + 1 := by
  have hb0 : 0 < b := by linarith
  induction k with
  | zero =>
    intro c n hn hl hc hd hs' hk
    rw [levelCount_node]
    cases hcs : c.children with
    | nil => simp [levelCountList]
    | cons m ms =>
      exfalso
      have hm : m ∈ c.children := by rw [hcs]; simp
      have h1 := (everywhere_iff.1 hc).1 m.index (child_mem hm (index_mem m))
      have hne : c.index ≠ m.index := by
        obtain ⟨i, l, g, cs⟩ := c
        simp only [CNode.children] at hcs hm
        rw [points, List.nodup_cons] at hd
        intro e
        exact hd.1 (by rw [show i = m.index from e]; exact mem_pointsList_iff.2 ⟨m, hm, index_mem m⟩)
      have h2 := hs' c.index (index_mem c) m.index (child_mem hm (index_mem m)) hne
      rw [hn] at h1
      have h3 : dist c.index m.index ≤ b ^ n := h1
      rw [pow_zero, mul_one] at hk
      linarith
  | succ k ih =>
    intro c n hn hl hc hd hs' hk
    rw [levelCount_node]
    refine Nat.succ_le_succ (levelCountList_le.2 fun m hm => ?_)
    obtain ⟨l1, l2⟩ := everywhere_iff.1 hl
    obtain ⟨c1, c2⟩ := everywhere_iff.1 hc
    refine ih m (n - 1) ?_ (l2 m hm) (c2 m hm) ?_ ?_ ?_
    · rw [l1 m hm, hn]; rfl
    · obtain ⟨i, l, g, cs⟩ := c
      rw [points, List.nodup_cons] at hd
      exact nodup_of_mem hd.2 hm
    · intro i hi j hj
      exact hs' i (child_mem hm hi) j (child_mem hm hj)
    · have : b ^ (n - 1) = b ^ n / b := by rw [zpow_sub_one₀ hb0.ne', div_eq_mul_inv]
      rw [this, div_lt_iff₀ hb0, mul_assoc, ← pow_succ]
      exact hk

end Height

/-! ### The depth of a search -/

section Search
variable {α L σ : Type} [LinearOrder α] [Sub α]

theorem foldl_same {τ υ : Type} {f g : υ → τ → Outcome υ} (l : List τ) (h : ∀ x ∈ l, ∀ s, f s x = g s x) (s : υ) :
    Outcome.foldl f s l = Outcome.foldl g s l := by
  induction l generalizing s with
  | nil => rfl
  | cons x l ih =>
    simp only [Outcome.foldl]
    rw [h x (by simp)]
    congr 1
    funext s'
    exact ih (fun y hy => h y (by simp [hy])) s'

theorem searchNearest_levels (sorter : StdSort (CNode L α × α)) (V : Visitor α σ) (dq : Nat → α) (k fuel : Nat) :
    ∀ (t : CNode L α) (s : σ), levelCount t ≤ fuel →
      searchNearest sorter V dq fuel t s = searchNearest sorter V dq (fuel + k) t s := by
  induction fuel with
  | zero => intro t s h; rw [levelCount_node] at h; omega
  | succ fuel ih =>
    intro t s h
    rw [levelCount_node] at h
    rw [Nat.succ_add, searchNearest, searchNearest]
    refine foldl_same _ (fun x hx s' => ?_) _
    have hx' : x.1 ∈ t.children := by
      have := (StdSort.sort_perm sorter (fun a b : CNode L α × α => decide (a.2 < b.2)) _ ⟨fun _ => by simp,
        fun a b c h h' => by
          simp only [decide_eq_true_eq] at *
          exact h.trans h', fun a b c h1 h2 h3 h4 => by
          simp only [decide_eq_false_iff_not, not_lt] at *
          exact ⟨h3.trans h1, h2.trans h4⟩⟩).mem_iff.1 hx
      obtain ⟨c, hc, rfl⟩ := List.mem_map.1 this
      exact hc
    rw [ih x.1 s' (levelCountList_le.1 (Nat.le_of_succ_le_succ h) x.1 hx')]

end Search

/-! ### The degree -/

section Degree
variable {K : Type} [Field K] [LinearOrder K] [IsStrictOrderedRing K] [FloorSemiring K] {d : Nat}

theorem packing {r R : K} (hr : 0 < r) (p : Pt K d) (l : List (Pt K d)) (hR : ∀ x ∈ l, ∀ j, |x j - p j| ≤ R)
    (hsep : l.Pairwise fun x y => ∃ j, r < |x j - y j|) : l.length ≤ (⌊2 * R / r⌋₊ + 1) ^ d := by
  let cell : Pt K d → Fin d → ℕ := fun x j => ⌊(x j - p j + R) / r⌋₊
  have hlt : ∀ x ∈ l, ∀ j, cell x j < ⌊2 * R / r⌋₊ + 1 := by
    intro x hx j
    refine Nat.lt_succ_of_le (Nat.floor_le_floor ?_)
    have := (abs_le.1 (hR x hx j)).2
    rw [div_le_div_iff_of_pos_right hr]
    linarith
  let code : Pt K d → Fin d → Fin (⌊2 * R / r⌋₊ + 1) := fun x j => Fin.ofNat _ (cell x j)
  have hnd : (l.map code).Nodup := by
    rw [List.Nodup, List.pairwise_map]
    refine hsep.imp_of_mem ?_
    rintro x y hx hy ⟨j, hj⟩ e
    have e1 : cell x j = cell y j := by
      have := congrArg Fin.val (congrFun e j)
      simpa [code, Fin.ofNat, Nat.mod_eq_of_lt (hlt x hx j), Nat.mod_eq_of_lt (hlt y hy j)] using this
    have hx0 : 0 ≤ (x j - p j + R) / r := div_nonneg (by linarith [(abs_le.1 (hR x hx j)).1]) hr.le
    have hy0 : 0 ≤ (y j - p j + R) / r := div_nonneg (by linarith [(abs_le.1 (hR y hy j)).1]) hr.le
    have a1 := Nat.floor_le hx0
    have a2 := Nat.lt_floor_add_one ((x j - p j + R) / r)
    have b1 := Nat.floor_le hy0
    have b2 := Nat.lt_floor_add_one ((y j - p j + R) / r)
    have e2 : (⌊(x j - p j + R) / r⌋₊ : K) = ⌊(y j - p j + R) / r⌋₊ := by exact_mod_cast e1
    have e3 : (x j - p j + R) / r - (y j - p j + R) / r = (x j - y j) / r := by rw [← sub_div]; congr 1; ring
    have : |(x j - y j) / r| < 1 := by rw [← e3, abs_lt]; constructor <;> linarith
    rw [abs_div, abs_of_pos hr, div_lt_one hr] at this
    linarith
  have := List.Nodup.length_le_card hnd
  simpa using this

theorem degree_le {b κ : K} (hb : 0 < b) (hκ : 0 < κ) {D : Pt K d → Pt K d → K}
    (h1 : ∀ x y j, |x j - y j| ≤ D x y) (h2 : ∀ x y m, 0 ≤ m → (∀ j, |x j - y j| ≤ m) → D x y ≤ κ * m)
    (hsym : ∀ x y, D x y = D y x) {γ : Type}
    (pts : Nat → Pt K d) (c : CNode (WithBot ℤ) γ) (hl : ∀ m ∈ c.children, m.level = c.level.map (· - 1))
    (hc : ∀ m ∈ c.children, D (pts c.index) (pts m.index) ≤ coverDistance b c.level)
    (ha : c.children.Pairwise fun a a' => coverDistance b a.level < D (pts a.index) (pts a'.index)) :
    c.children.length ≤ (⌊2 * b * κ⌋₊ + 1) ^ d := by
  cases hlev : c.level with
  | bot =>
    have hone : c.children.length ≤ 1 := by
      cases hcs : c.children with
      | nil => simp
      | cons a as =>
        cases as with
        | nil => simp
        | cons a' as =>
          exfalso
          rw [hcs, List.pairwise_cons] at ha
          have h3 := ha.1 a' (by simp)
          rw [hl a (by rw [hcs]; simp), hlev] at h3
          have h4 := hc a (by rw [hcs]; simp)
          have h5 := hc a' (by rw [hcs]; simp)
          rw [hlev] at h4 h5
          have h6 : D (pts a.index) (pts a'.index) ≤ κ * 0 := by
            refine h2 _ _ 0 le_rfl fun j => ?_
            have k1 := (h1 (pts c.index) (pts a.index) j).trans h4
            have k2 := (h1 (pts c.index) (pts a'.index) j).trans h5
            have k1' := abs_le.1 (show |_| ≤ (0 : K) from k1)
            have k2' := abs_le.1 (show |_| ≤ (0 : K) from k2)
            rw [abs_le]
            constructor <;> linarith [k1'.1, k1'.2, k2'.1, k2'.2]
          have h7 : (0 : K) < D (pts a.index) (pts a'.index) := h3
          linarith
    exact hone.trans (Nat.one_le_pow _ _ (Nat.succ_pos _))
  | coe n =>
    have hr : 0 < b ^ (n - 1) / κ := div_pos (zpow_pos hb _) hκ
    have key := packing (r := b ^ (n - 1) / κ) (R := b ^ n) hr (pts c.index) (c.children.map fun m => pts m.index) (by
        intro x hx j
        obtain ⟨m, hm, rfl⟩ := List.mem_map.1 hx
        have := hc m hm
        rw [hlev] at this
        rw [abs_sub_comm]
        exact (h1 _ _ j).trans this) (by
        rw [List.pairwise_map]
        refine ha.imp_of_mem ?_
        intro x y hx hy hxy
        by_contra hcon
        push Not at hcon
        have h3 := h2 _ _ _ hr.le hcon
        rw [mul_div_cancel₀ _ hκ.ne'] at h3
        rw [hl x hx, hlev] at hxy
        have h4 : b ^ (n - 1) < D (pts x.index) (pts y.index) := hxy
        linarith)
    rw [List.length_map] at key
    have e : 2 * b ^ n / (b ^ (n - 1) / κ) = 2 * b * κ := by
      rw [zpow_sub_one₀ hb.ne']
      have := (zpow_pos hb n).ne'
      field_simp
    rwa [e] at key

end Degree

end Cover

end Pico
