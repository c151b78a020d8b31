import Verif.Proof.Built
import Verif.SpecTree
import Mathlib.Tactic.Ring
import Mathlib.Tactic.Positivity

/-! # The shape of built trees -/

set_option linter.unusedSectionVars false

namespace Pico

open Spec

section
variable {β : Type}

theorem leavesFrom_map_snd (t : Tree β) (k : Nat) :
    (leavesFrom k t).map Prod.snd = ranges t := by
  have : ∀ (t : Tree β) (k m : Nat), (leavesFrom k t).map Prod.snd = (leavesFrom m t).map Prod.snd := by
    intro t
    induction t with
    | leaf b e => intro k m; rfl
    | branch data l r ih1 ih2 =>
      intro k m
      simp only [leavesFrom, List.map_append]
      rw [ih1 (k + 1) (m + 1), ih2 (k + 1) (m + 1)]
  exact this t k 0

theorem ranges_branch (data : β) (l r : Tree β) : ranges (.branch data l r) = ranges l ++ ranges r := by
  rw [ranges, leaves, leavesFrom, List.map_append, leavesFrom_map_snd, leavesFrom_map_snd]

theorem ranges_leaf (b e : Nat) : ranges (.leaf b e : Tree β) = [(b, e)] := rfl

theorem tiles_append {a b c : Nat} {l m : List (Nat × Nat)} (h1 : Tiles a l b) (h2 : Tiles b m c) :
    Tiles a (l ++ m) c := by
  induction l generalizing a with
  | nil => simp only [Tiles] at h1; subst h1; exact h2
  | cons x l ih =>
    obtain ⟨x, y⟩ := x
    obtain ⟨h3, h4, h5⟩ := h1
    exact ⟨h3, h4, ih h5⟩

theorem tiles_le {a b : Nat} {l : List (Nat × Nat)} (h : Tiles a l b) : a ≤ b := by
  induction l generalizing a with
  | nil => exact le_of_eq h
  | cons x l ih =>
    obtain ⟨x, y⟩ := x
    obtain ⟨h3, h4, h5⟩ := h
    have := ih h5
    omega

theorem tiles_flatMap {a b : Nat} {l : List (Nat × Nat)} (h : Tiles a l b) {τ : Type} (v : List τ) :
    l.flatMap (fun r => slice v r.1 r.2) = slice v a b := by
  induction l generalizing a with
  | nil => simp only [Tiles] at h; subst h; simp [slice]
  | cons x l ih =>
    obtain ⟨x, y⟩ := x
    obtain ⟨h3, h4, h5⟩ := h
    have h6 := tiles_le h5
    subst h3
    rw [List.flatMap_cons, ih h5]
    simp only [slice]
    have e1 : b - x = (y - x) + (b - y) := by omega
    have e2 : v.drop y = (v.drop x).drop (y - x) := by rw [List.drop_drop]; congr 1; omega
    rw [e1, List.take_add, e2]

/-- The number of non-empty leaves is at most the number of points. -/
theorem tiles_length {a b : Nat} {l : List (Nat × Nat)} (h : Tiles a l b)
    (hne : ∀ r ∈ l, r.1 < r.2) : l.length ≤ b - a := by
  induction l generalizing a with
  | nil => simp
  | cons x l ih =>
    obtain ⟨x, y⟩ := x
    obtain ⟨h3, h4, h5⟩ := h
    have h6 := tiles_le h5
    have h7 := ih h5 (fun r hr => hne r (by simp [hr]))
    have h8 := hne (x, y) (by simp)
    simp only at h8
    rw [List.length_cons]
    omega

theorem nodes_eq (t : Tree β) : nodes t + 1 = 2 * (ranges t).length := by
  induction t with
  | leaf b e => rfl
  | branch data l r ih1 ih2 =>
    rw [ranges_branch, List.length_append, nodes]
    omega

/-- Full description of `leaf_ranges`. -/
theorem insertLeafRange_eq (t : Tree β) (rs : List (Nat × Nat)) :
    insertLeafRange t rs = if ∀ r ∈ ranges t, r.1 ≠ r.2 then .ok (rs ++ ranges t) else .ub := by
  induction t generalizing rs with
  | leaf b e =>
    simp [insertLeafRange, ranges_leaf]
  | branch data l r ih1 ih2 =>
    rw [insertLeafRange, ih1, ranges_branch]
    by_cases h1 : ∀ r ∈ ranges l, r.1 ≠ r.2
    · rw [if_pos h1]
      simp only [Outcome.bind]
      rw [ih2]
      by_cases h2 : ∀ x ∈ ranges r, x.1 ≠ x.2
      · rw [if_pos h2, if_pos, List.append_assoc]
        intro x hx
        rcases List.mem_append.1 hx with hx | hx
        · exact h1 x hx
        · exact h2 x hx
      · rw [if_neg h2, if_neg]
        intro h3
        exact h2 fun x hx => h3 x (List.mem_append_right _ hx)
    · rw [if_neg h1, if_neg]
      · rfl
      · intro h3
        exact h1 fun x hx => h3 x (List.mem_append_left _ hx)

theorem depth_le_height (t : Tree β) (k : Nat) : ∀ x ∈ leavesFrom k t, x.1 ≤ k + height t := by
  induction t generalizing k with
  | leaf b e => intro x hx; simp only [leavesFrom, List.mem_singleton] at hx; simp [hx, height]
  | branch data l r ih1 ih2 =>
    intro x hx
    simp only [leavesFrom, List.mem_append] at hx
    rw [height]
    rcases hx with hx | hx
    · have := ih1 (k + 1) x hx; omega
    · have := ih2 (k + 1) x hx; omega

end

section
variable {α : Type} [LinearOrder α] [Add α] [Sub α] {d : Nat} {β : Type} {C : BuildCfg α d β}
  {depth : Int} {o : Nat} {seg : List Nat} {box : Box α d} {t : Tree β} {seg' : List Nat}
  {box' : Box α d}

theorem Created.tiles (h : Created C depth o seg box t seg' box') :
    Tiles o (ranges t) (o + seg.length) := by
  induction h with
  | leaf hl => exact ⟨rfl, Nat.le_add_right _ _, rfl⟩
  | @branch depth o seg box sp l r segL segR boxL boxR hl hs _ _ ih1 ih2 =>
    rw [ranges_branch]
    rw [splitter_take_length hs] at ih1
    rw [splitter_drop_length hs] at ih2
    have h1 := (splitter_ok hs).1.pos_le
    refine tiles_append ih1 ?_
    have e : o + sp.pos + (seg.length - sp.pos) = o + seg.length := by omega
    rwa [e] at ih2

theorem Created.size_eq (h : Created C depth o seg box t seg' box') : size t = seg.length := by
  induction h with
  | leaf hl => simp [size]
  | @branch depth o seg box sp l r segL segR boxL boxR hl hs _ _ ih1 ih2 =>
    rw [size, ih1, ih2, splitter_take_length hs, splitter_drop_length hs]
    have h1 := (splitter_ok hs).1.pos_le
    omega

/-- The narrowing of the stop value keeps values below `2 ^ (w - 1)`. -/
theorem castIndex_eq {w v : Nat} (h : v < 2 ^ (w - 1)) : castIndex w v = v := by
  unfold castIndex
  cases w with
  | zero => simp at h; subst h; rfl
  | succ w =>
    simp only [Nat.add_sub_cancel] at h
    have hp : (2 : Nat) ^ (w + 1) = 2 * 2 ^ w := by rw [pow_succ]; ring
    refine Int.bmod_eq_of_le ?_ ?_
    · have : (0 : Int) ≤ v := by positivity
      have h2 : (0 : Int) ≤ ((2 ^ (w + 1) : Nat) : Int) / 2 := by positivity
      omega
    · rw [hp]
      push_cast
      have : (v : Int) < 2 ^ w := by exact_mod_cast h
      omega

theorem Created.leaf_size (h : Created C depth o seg box t seg' box') {m : Nat}
    (hst : C.stop = .maxLeafSize m) (hm : m < 2 ^ (C.indexBits - 1)) :
    ∀ r ∈ ranges t, r.2 - r.1 ≤ m := by
  induction h with
  | @leaf depth o seg box hl =>
    intro r hr
    rw [ranges_leaf, List.mem_singleton] at hr
    subst hr
    simp only [isLeaf, hst, castIndex_eq hm, decide_eq_true_eq] at hl
    have : seg.length ≤ m := by exact_mod_cast hl
    simpa using this
  | @branch depth o seg box sp l r segL segR boxL boxR hl hs _ _ ih1 ih2 =>
    intro x hx
    rw [ranges_branch] at hx
    rcases List.mem_append.1 hx with hx | hx
    · exact ih1 x hx
    · exact ih2 x hx

theorem Created.leaf_depth (h : Created C depth o seg box t seg' box') {m k : Nat}
    (hst : C.stop = .maxLeafDepth m) (hm : m < 2 ^ (C.indexBits - 1)) (hd : depth = k) (hk : k ≤ m) :
    ∀ x ∈ leavesFrom k t, x.1 ≤ m ∧ (x.1 < m → x.2.2 - x.2.1 ≤ 1) := by
  induction h generalizing k with
  | @leaf depth o seg box hl =>
    intro x hx
    simp only [leavesFrom, List.mem_singleton] at hx
    subst hx
    refine ⟨hk, ?_⟩
    intro hkm
    simp only [isLeaf, hst, castIndex_eq hm, hd, Bool.or_eq_true, decide_eq_true_eq] at hl
    simp only at hkm ⊢
    omega
  | @branch depth o seg box sp l r segL segR boxL boxR hl hs _ _ ih1 ih2 =>
    simp only [isLeaf, hst, castIndex_eq hm, hd, Bool.or_eq_false_iff, decide_eq_false_iff_not] at hl
    intro x hx
    simp only [leavesFrom, List.mem_append] at hx
    have hk' : k + 1 ≤ m := by omega
    rcases hx with hx | hx
    · exact ih1 (by rw [hd]; push_cast; ring) hk' x hx
    · exact ih2 (by rw [hd]; push_cast; ring) hk' x hx

/-- The stop condition never asks to split fewer than two points. -/
def StopOk (C : BuildCfg α d β) : Prop :=
  match C.stop with
  | .maxLeafSize m => 1 ≤ castIndex C.indexBits m
  | .maxLeafDepth _ => True

theorem stopOk_of {C : BuildCfg α d β}
    (h : ∀ m, C.stop = .maxLeafSize m → 1 ≤ m ∧ m < 2 ^ (C.indexBits - 1)) : StopOk C := by
  unfold StopOk
  split
  · rename_i m hm
    obtain ⟨h1, h2⟩ := h m hm
    rw [castIndex_eq h2]
    exact_mod_cast h1
  · trivial

theorem two_le_of_not_leaf {C : BuildCfg α d β} (hs : StopOk C) {depth : Int} {len : Nat}
    (h : isLeaf C depth len = false) : 2 ≤ len := by
  unfold StopOk at hs
  unfold isLeaf at h
  split at h
  · rename_i m hm
    rw [hm] at hs
    simp only [decide_eq_false_iff_not] at h
    simp only at hs
    omega
  · simp only [Bool.or_eq_false_iff, decide_eq_false_iff_not] at h
    omega

theorem split_pos {C : BuildCfg α d β} (hr : C.rule ≠ .midpoint) {seg : List Nat} {box : Box α d}
    {sp : Split α d} (hs : splitter C seg box = .ok sp) (h2 : 2 ≤ seg.length) :
    0 < sp.pos ∧ sp.pos < seg.length := by
  obtain ⟨_, _, h3, h4, h5⟩ := splitter_ok hs
  cases hrule : C.rule with
  | median =>
    have := h3 hrule
    omega
  | midpoint => exact absurd hrule hr
  | sliding => exact h5 hrule h2

theorem Created.nonempty (h : Created C depth o seg box t seg' box') (hr : C.rule ≠ .midpoint)
    (hst : StopOk C) (hn : 0 < seg.length) : ∀ r ∈ ranges t, r.1 < r.2 := by
  induction h with
  | @leaf depth o seg box hl =>
    intro r hr
    rw [ranges_leaf, List.mem_singleton] at hr
    subst hr
    simp only
    omega
  | @branch depth o seg box sp l r segL segR boxL boxR hl hs _ _ ih1 ih2 =>
    have hp := split_pos hr hs (two_le_of_not_leaf hst hl)
    rw [splitter_take_length hs] at ih1
    rw [splitter_drop_length hs] at ih2
    intro x hx
    rw [ranges_branch] at hx
    rcases List.mem_append.1 hx with hx | hx
    · exact ih1 hp.1 x hx
    · exact ih2 (by omega) x hx

theorem Created.balanced (h : Created C depth o seg box t seg' box') (hr : C.rule = .median) :
    Balanced t := by
  induction h with
  | leaf hl => trivial
  | @branch depth o seg box sp l r segL segR boxL boxR hl hs h1 h2 ih1 ih2 =>
    have hp := (splitter_ok hs).2.2.1 hr
    refine ⟨?_, ?_, ih1, ih2⟩ <;>
    · rw [h1.size_eq, h2.size_eq, splitter_take_length hs, splitter_drop_length hs]
      omega

theorem Created.height_le (h : Created C depth o seg box t seg' box') (hr : C.rule = .median) {m : Nat}
    (hst : C.stop = .maxLeafSize m) (hm : m < 2 ^ (C.indexBits - 1)) (k : Nat)
    (hk : seg.length ≤ m * 2 ^ k) : height t ≤ k := by
  induction h generalizing k with
  | leaf hl => exact Nat.zero_le _
  | @branch depth o seg box sp l r segL segR boxL boxR hl hs h1 h2 ih1 ih2 =>
    have hp := (splitter_ok hs).2.2.1 hr
    rw [splitter_take_length hs] at ih1
    rw [splitter_drop_length hs] at ih2
    simp only [isLeaf, hst, castIndex_eq hm, decide_eq_false_iff_not] at hl
    have hlm : m < seg.length := by
      have : ¬ seg.length ≤ m := by exact_mod_cast hl
      omega
    cases k with
    | zero => simp at hk; omega
    | succ k =>
      have e : m * 2 ^ (k + 1) = 2 * (m * 2 ^ k) := by ring
      rw [e] at hk
      have h3 := ih1 k (by omega)
      have h4 := ih2 k (by omega)
      rw [height]
      omega

/-! ## Termination -/

/-- Numeric conditions under which the splitters find a longest side and stay inside `[a, b]`. -/
structure SplitSafe (N : Num α) (a b : α) : Prop where
  low : ∀ x y, a ≤ x → x ≤ b → a ≤ y → y ≤ b → N.low < x - y
  mul : ∀ x y, a ≤ x → x ≤ b → a ≤ y → y ≤ b → a ≤ N.mulHalf (y - x) + x ∧ N.mulHalf (y - x) + x ≤ b
  div : ∀ x y, a ≤ x → x ≤ b → a ≤ y → y ≤ b → a ≤ N.divTwo (y - x) + x ∧ N.divTwo (y - x) + x ≤ b

/-- A box inside `[a, b]^d`, not necessarily ordered. -/
def Within (a b : α) (box : Box α d) : Prop :=
  ∀ j, (a ≤ box.min j ∧ box.min j ≤ b) ∧ (a ≤ box.max j ∧ box.max j ≤ b)

theorem maxSide_isSome {N : Num α} {a b : α} (hS : SplitSafe N a b) {box : Box α d}
    (hw : Within a b box) (hd : 0 < d) : ∃ dim delta, box.maxSide N = (some dim, delta) := by
  rcases h : box.maxSide N with ⟨o, delta⟩
  cases o with
  | some dim => exact ⟨dim, delta, rfl⟩
  | none =>
    exfalso
    have h1 := maxSide_none (N := N) (b := box) (by rw [h]) ⟨0, hd⟩
    have h2 := hw ⟨0, hd⟩
    exact absurd (hS.low _ _ h2.2.1 h2.2.2 h2.1.1 h2.1.2) (not_lt.2 h1)

/-- The splitters succeed on two or more points. -/
theorem splitter_isOk {a b : α} (hS : SplitSafe C.N a b) {seg : List Nat} {box : Box α d}
    (hw : Within a b box) (hd : 0 < d) (h2 : 2 ≤ seg.length) : ∃ sp, splitter C seg box = .ok sp := by
  obtain ⟨dim, delta, hm⟩ := maxSide_isSome hS hw hd
  unfold splitter
  cases C.rule with
  | median =>
    simp only [splitMedian, hm]
    exact nthSplit_of_lt _ _ _ (by omega)
  | midpoint =>
    simp only [splitMidpoint, hm]
    exact ⟨_, rfl⟩
  | sliding =>
    simp only [splitSliding, hm]
    have hp := C.S.partition_perm (coordBelow C.pts dim (C.N.divTwo delta + box.min dim)) seg
    rw [hp.length_eq]
    split_ifs with h3 h4
    · split
      · omega
      · exact nthSplit_of_lt _ _ _ (by rw [hp.length_eq]; omega)
    · exact nthSplit_of_lt _ _ _ (by rw [hp.length_eq]; omega)
    · exact ⟨_, rfl⟩

/-- The midpoint splitter succeeds on any number of points. -/
theorem splitter_isOk_midpoint {a b : α} (hS : SplitSafe C.N a b) (hr : C.rule = .midpoint)
    {seg : List Nat} {box : Box α d} (hw : Within a b box) (hd : 0 < d) :
    ∃ sp, splitter C seg box = .ok sp := by
  obtain ⟨dim, delta, hm⟩ := maxSide_isSome hS hw hd
  unfold splitter
  rw [hr]
  simp only [splitMidpoint, hm]
  exact ⟨_, rfl⟩

theorem splitter_val_within {a b : α} (hS : SplitSafe C.N a b) {seg : List Nat} {box : Box α d}
    (hw : Within a b box) {sp : Split α d} (hs : splitter C seg box = .ok sp)
    (hp : ∀ i ∈ seg, ∀ j, a ≤ C.pts i j ∧ C.pts i j ≤ b) : a ≤ sp.val ∧ sp.val ≤ b := by
  obtain ⟨_, ⟨delta, hm, h1, h2, h3⟩, _⟩ := splitter_ok hs
  have hdel := (maxSide_some hm).1
  have hwd := hw sp.dim
  cases hr : C.rule with
  | median =>
    obtain ⟨i, hi, hv⟩ := h2 hr
    rw [hv]; exact hp i hi _
  | midpoint =>
    rw [h1 hr, hdel]
    exact hS.mul _ _ hwd.1.1 hwd.1.2 hwd.2.1 hwd.2.2
  | sliding =>
    rcases h3 hr with hv | ⟨i, hi, hv⟩
    · rw [hv, hdel]
      exact hS.div _ _ hwd.1.1 hwd.1.2 hwd.2.1 hwd.2.2
    · rw [hv]; exact hp i hi _

theorem within_setMax {a b : α} {box : Box α d} (hw : Within a b box) {dim : Fin d} {v : α}
    (hv : a ≤ v ∧ v ≤ b) : Within a b (box.setMax dim v) := by
  intro j
  refine ⟨(hw j).1, ?_⟩
  by_cases hj : j = dim
  · subst hj; simpa using hv
  · rw [Box.setMax_max_ne _ _ hj]; exact (hw j).2

theorem within_setMin {a b : α} {box : Box α d} (hw : Within a b box) {dim : Fin d} {v : α}
    (hv : a ≤ v ∧ v ≤ b) : Within a b (box.setMin dim v) := by
  intro j
  refine ⟨?_, (hw j).2⟩
  by_cases hj : j = dim
  · subst hj; simpa using hv
  · rw [Box.setMin_min_ne _ _ hj]; exact (hw j).1

/-- Median and sliding midpoint: recursion on the number of points. -/
theorem created_exists {a b : α} (hS : SplitSafe C.N a b) (hd : 0 < d) (hr : C.rule ≠ .midpoint)
    (hst : StopOk C) (len : Nat) :
    ∀ (depth : Int) (o : Nat) (seg : List Nat) (box : Box α d), seg.length ≤ len → Within a b box →
      (∀ i ∈ seg, ∀ j, a ≤ C.pts i j ∧ C.pts i j ≤ b) →
      ∃ t seg' box', Created C depth o seg box t seg' box' := by
  induction len with
  | zero =>
    intro depth o seg box hlen hw hp
    cases hl : isLeaf C depth seg.length with
    | true => exact ⟨_, _, _, .leaf hl⟩
    | false => have := two_le_of_not_leaf hst hl; omega
  | succ len ih =>
    intro depth o seg box hlen hw hp
    cases hl : isLeaf C depth seg.length with
    | true => exact ⟨_, _, _, .leaf hl⟩
    | false =>
      have h2 := two_le_of_not_leaf hst hl
      obtain ⟨sp, hs⟩ := splitter_isOk hS hw hd h2 (seg := seg)
      have hpos := split_pos hr hs h2
      have hv := splitter_val_within hS hw hs hp
      have hmem := splitter_mem hs
      obtain ⟨l, sl, bl, hL⟩ := ih (depth + 1) o (sp.seg.take sp.pos) (box.setMax sp.dim sp.val)
        (by rw [splitter_take_length hs]; omega) (within_setMax hw hv) (fun i hi => hp i (hmem.1 i hi))
      obtain ⟨r, sr, br, hR⟩ := ih (depth + 1) (o + sp.pos) (sp.seg.drop sp.pos)
        (box.setMin sp.dim sp.val) (by rw [splitter_drop_length hs]; omega) (within_setMin hw hv)
        (fun i hi => hp i (hmem.2 i hi))
      exact ⟨_, _, _, .branch hl hs hL hR⟩

/-- A depth limit: recursion on the remaining depth. -/
theorem created_exists_depth {a b : α} (hS : SplitSafe C.N a b) (hd : 0 < d) {m : Nat}
    (hst : C.stop = .maxLeafDepth m) (hm : m < 2 ^ (C.indexBits - 1)) (rem : Nat) :
    ∀ (k : Nat) (o : Nat) (seg : List Nat) (box : Box α d), k + rem = m → Within a b box →
      (∀ i ∈ seg, ∀ j, a ≤ C.pts i j ∧ C.pts i j ≤ b) →
      ∃ t seg' box', Created C k o seg box t seg' box' := by
  have hso : StopOk C := by unfold StopOk; rw [hst]; trivial
  induction rem with
  | zero =>
    intro k o seg box hk hw hp
    refine ⟨_, _, _, .leaf ?_⟩
    simp [isLeaf, hst, castIndex_eq hm]
    omega
  | succ rem ih =>
    intro k o seg box hk hw hp
    cases hl : isLeaf C k seg.length with
    | true => exact ⟨_, _, _, .leaf hl⟩
    | false =>
      have h2 := two_le_of_not_leaf hso hl
      obtain ⟨sp, hs⟩ := splitter_isOk hS hw hd h2 (seg := seg)
      have hv := splitter_val_within hS hw hs hp
      have hmem := splitter_mem hs
      obtain ⟨l, sl, bl, hL⟩ := ih (k + 1) o (sp.seg.take sp.pos) (box.setMax sp.dim sp.val)
        (by omega) (within_setMax hw hv) (fun i hi => hp i (hmem.1 i hi))
      obtain ⟨r, sr, br, hR⟩ := ih (k + 1) (o + sp.pos) (sp.seg.drop sp.pos)
        (box.setMin sp.dim sp.val) (by omega) (within_setMin hw hv)
        (fun i hi => hp i (hmem.2 i hi))
      push_cast at hL hR
      exact ⟨_, _, _, .branch hl hs hL hR⟩

theorem buildTree_of_created {n : Nat} {bounds : Bounds α d} {t : Tree β} {seg' : List Nat}
    {box' : Box α d}
    (h : Created C 0 0 (List.range n) (boxFromBounds C.N C.pts n bounds) t seg' box') :
    ∃ fuel, ∀ f ≥ fuel, buildTree C n bounds f = .ok ⟨seg', boxFromBounds C.N C.pts n bounds, t⟩ := by
  obtain ⟨fuel, hf⟩ := createNode_of_created h
  refine ⟨fuel, fun f hge => ?_⟩
  simp only [buildTree, hf f hge, Outcome.bind]

/-- The start box lies in any interval that contains the points, the bounds, and some point. -/
theorem boxFromBounds_within {N : Num α} {a b : α} {pts : Nat → Pt α d} {n : Nat} {bounds : Bounds α d}
    (hn : 0 < n) (hN : N.low ≤ b ∧ a ≤ N.big)
    (hp : ∀ i < n, ∀ j, a ≤ pts i j ∧ pts i j ≤ b)
    (hb : ∀ mn mx, bounds = .given mn mx → ∀ j, (a ≤ mn j ∧ mn j ≤ b) ∧ (a ≤ mx j ∧ mx j ≤ b)) :
    Within a b (boxFromBounds N pts n bounds) := by
  intro j
  cases bounds with
  | fromSpace =>
    have h0 := boxFromBounds_fromSpace_mem N pts n 0 hn j
    have h1 : a ≤ (boxFromBounds N pts n .fromSpace).min j :=
      (foldl_fitPt_min pts _ _ j _).2 ⟨hN.2, fun i hi => (hp i (List.mem_range.1 hi) j).1⟩
    have h2 : (boxFromBounds N pts n .fromSpace).max j ≤ b :=
      (foldl_fitPt_max pts _ _ j _).2 ⟨hN.1, fun i hi => (hp i (List.mem_range.1 hi) j).2⟩
    exact ⟨⟨h1, h0.1.trans (hp 0 hn j).2⟩, ⟨(hp 0 hn j).1.trans h0.2, h2⟩⟩
  | given mn mx =>
    have := hb mn mx rfl j
    rw [boxFromBounds_given_min, boxFromBounds_given_max]
    exact ⟨⟨le_min (le_min hN.2 this.1.1) this.2.1, (min_le_right _ _).trans this.2.2⟩,
      ⟨this.2.1.trans (le_max_right _ _), max_le (max_le hN.1 this.1.2) this.2.2⟩⟩

end

end Pico
