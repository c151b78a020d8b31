import Verif.Proof.Built
import Verif.Model.KdTree

/-!
# Construction in two scalar types at once

`e` maps scalars to scalars of another type.  If it respects the comparisons and the few arithmetic
operations the construction needs, then the construction of the mapped points is the mapped construction.
The target type needs no order law (it may have a NaN).
-/

set_option linter.unusedSectionVars false

namespace Pico

/-- A box with all coordinates mapped. -/
def Box.map {α γ : Type} {d : Nat} (e : α → γ) (b : Box α d) : Box γ d :=
  ⟨fun j => e (b.min j), fun j => e (b.max j)⟩

/-- A tree with all branch data mapped. -/
def Tree.map {β β' : Type} (f : β → β') : Tree β → Tree β'
  | .leaf b e => .leaf b e
  | .branch data l r => .branch (f data) (l.map f) (r.map f)

/-- A result mapped; undefined behaviour and divergence stay. -/
def Outcome.map {τ υ : Type} (f : τ → υ) : Outcome τ → Outcome υ
  | .ok a => .ok (f a)
  | .ub => .ub
  | .oof => .oof

def Bounds.map {α γ : Type} {d : Nat} (e : α → γ) : Bounds α d → Bounds γ d
  | .fromSpace => .fromSpace
  | .given mn mx => .given (fun j => e (mn j)) fun j => e (mx j)

def BuildOpts.map {α γ : Type} {d : Nat} (e : α → γ) (o : BuildOpts α d) : BuildOpts γ d :=
  ⟨o.S, o.rule, o.stop, o.bounds.map e, o.indexBits⟩

def TreeData.map {α γ β β' : Type} {d : Nat} (e : α → γ) (f : β → β') (t : TreeData α d β) : TreeData γ d β' :=
  ⟨t.indices, t.rootBox.map e, t.root.map f⟩

/-- The part of `splitSliding` after the partition. -/
def slideAt {α : Type} [LT α] [DecidableLT α] {d : Nat} (S : Std) (pts : Nat → Pt α d) (dim : Fin d) (v : α)
    (r : List Nat × Nat) : Outcome (Split α d) :=
  if r.2 = r.1.length then
    match r.2 with
    | 0 => .ub
    | k' + 1 => nthSplit S pts dim k' r.1
  else if r.2 = 0 then nthSplit S pts dim 1 r.1
  else .ok ⟨r.1, r.2, dim, v⟩

theorem splitSliding_eq {α : Type} [LT α] [LE α] [DecidableLT α] [DecidableLE α] [Sub α] [Add α] {d : Nat} (S : Std)
    (N : Num α) (pts : Nat → Pt α d) (seg : List Nat) (box : Box α d) : splitSliding S N pts seg box =
      match box.maxSide N with
      | (none, _) => .ub
      | (some dim, delta) => slideAt S pts dim (N.divTwo delta + box.min dim)
          (S.partition (coordBelow pts dim (N.divTwo delta + box.min dim)) seg) := rfl

section
variable {α γ : Type} [LinearOrder α] [Add α] [Sub α] [LT γ] [LE γ] [DecidableLT γ] [DecidableLE γ] [Add γ] [Sub γ]
  {d : Nat} {β β' : Type}

/-- What `e` has to respect: comparisons of the scalars in `W`, side lengths and split values for scalars
in `V`. -/
structure Embeds (rule : Rule) (N : Num α) (N' : Num γ) (e : α → γ) (W V : α → Prop) : Prop where
  sub : ∀ x, V x → W x
  lt : ∀ x y, W x → W y → (e x < e y ↔ x < y)
  low : W N.low
  low_eq : e N.low = N'.low
  big : W N.big
  big_eq : e N.big = N'.big
  side_low : ∀ x y, V x → V y → (N'.low < e x - e y ↔ N.low < x - y)
  side : ∀ x y z w, V x → V y → V z → V w → N.low < x - y → (e x - e y < e z - e w ↔ x - y < z - w)
  mul : rule = .midpoint → ∀ x y, V x → V y → N.low < y - x →
    V (N.mulHalf (y - x) + x) ∧ N'.mulHalf (e y - e x) + e x = e (N.mulHalf (y - x) + x)
  div : rule = .sliding → ∀ x y z, V x → V y → V z → N.low < y - x →
    (e z < N'.divTwo (e y - e x) + e x ↔ z < N.divTwo (y - x) + x)
  div_in : rule = .sliding → ∀ x y z w, V x → V y → V z → V w → N.low < y - x →
    z < N.divTwo (y - x) + x → ¬ w < N.divTwo (y - x) + x →
    V (N.divTwo (y - x) + x) ∧ N'.divTwo (e y - e x) + e x = e (N.divTwo (y - x) + x)

/-- A box with all coordinates in a set. -/
def Box.All (P : α → Prop) (b : Box α d) : Prop := ∀ j, P (b.min j) ∧ P (b.max j)

variable {rule : Rule} {N : Num α} {N' : Num γ} {e : α → γ} {W V : α → Prop}

namespace Embeds
variable (h : Embeds rule N N' e W V)
include h

theorem fitPt {b : Box α d} (hb : b.All W) {x : Pt α d} (hx : ∀ j, W (x j)) :
    (b.map e).fitPt (fun j => e (x j)) = (b.fitPt x).map e ∧ (b.fitPt x).All W := by
  constructor
  · unfold Box.fitPt Box.map
    congr 1
    · funext j
      simp only [h.lt _ _ (hx j) (hb j).1]
      split_ifs <;> rfl
    · funext j
      simp only [gt_iff_lt, h.lt _ _ (hb j).2 (hx j)]
      split_ifs <;> rfl
  · intro j
    simp only [Box.fitPt]
    split_ifs <;> simp [hx j, (hb j).1, (hb j).2]

theorem fitBox {b c : Box α d} (hb : b.All W) (hc : c.All W) :
    (b.map e).fitBox (c.map e) = (b.fitBox c).map e ∧ (b.fitBox c).All W := by
  constructor
  · unfold Box.fitBox Box.map
    congr 1
    · funext j
      simp only [h.lt _ _ (hc j).1 (hb j).1]
      split_ifs <;> rfl
    · funext j
      simp only [gt_iff_lt, h.lt _ _ (hb j).2 (hc j).2]
      split_ifs <;> rfl
  · intro j
    simp only [Box.fitBox]
    split_ifs <;> simp [(hb j).1, (hb j).2, (hc j).1, (hc j).2]

theorem foldl_fitPt {pts : Nat → Pt α d} (hp : ∀ i j, W (pts i j)) (l : List Nat) {b : Box α d}
    (hb : b.All W) : l.foldl (fun b i => b.fitPt fun j => e (pts i j)) (b.map e) =
        (l.foldl (fun b i => b.fitPt (pts i)) b).map e ∧
      (l.foldl (fun b i => b.fitPt (pts i)) b).All W := by
  induction l generalizing b with
  | nil => exact ⟨rfl, hb⟩
  | cons a l ih =>
    obtain ⟨h1, h2⟩ := h.fitPt hb (hp a)
    simp only [List.foldl_cons, h1]
    exact ih h2

theorem inverseMax : (Box.inverseMax N' : Box γ d) = (Box.inverseMax N).map e ∧
    (Box.inverseMax N : Box α d).All W := by
  refine ⟨?_, fun j => ⟨h.big, h.low⟩⟩
  unfold Box.inverseMax Box.map
  simp only [h.low_eq, h.big_eq]

theorem computeBoundingBox {pts : Nat → Pt α d} (hp : ∀ i j, W (pts i j)) (l : List Nat) :
    computeBoundingBox N' (fun i j => e (pts i j)) l = (computeBoundingBox N pts l).map e ∧
      (Pico.computeBoundingBox N pts l).All W := by
  unfold Pico.computeBoundingBox
  rw [h.inverseMax.1]
  exact h.foldl_fitPt hp l h.inverseMax.2

theorem maxSide {b : Box α d} (hb : b.All V) :
    (∃ i, b.maxSide N = (some i, b.max i - b.min i) ∧ N.low < b.max i - b.min i ∧
      (b.map e).maxSide N' = (some i, e (b.max i) - e (b.min i))) ∨
    (b.maxSide N = (none, N.low) ∧ (b.map e).maxSide N' = (none, N'.low)) := by
  unfold Box.maxSide
  have key : ∀ (l : List (Fin d)) (s : Option (Fin d) × α) (s' : Option (Fin d) × γ),
      ((∃ i, s = (some i, b.max i - b.min i) ∧ N.low < b.max i - b.min i ∧
        s' = (some i, e (b.max i) - e (b.min i))) ∨ (s = (none, N.low) ∧ s' = (none, N'.low))) →
      ((∃ i, l.foldl (Box.maxSideStep b) s = (some i, b.max i - b.min i) ∧ N.low < b.max i - b.min i ∧
        l.foldl (Box.maxSideStep (b.map e)) s' = (some i, e (b.max i) - e (b.min i))) ∨
      (l.foldl (Box.maxSideStep b) s = (none, N.low) ∧
        l.foldl (Box.maxSideStep (b.map e)) s' = (none, N'.low))) := by
    intro l
    induction l with
    | nil => exact fun s s' hs => hs
    | cons a l ih =>
      intro s s' hs
      simp only [List.foldl_cons]
      apply ih
      rcases hs with ⟨i, rfl, hlow, rfl⟩ | ⟨rfl, rfl⟩
      · have hi := h.side (b.max i) (b.min i) (b.max a) (b.min a) (hb i).2 (hb i).1 (hb a).2 (hb a).1 hlow
        left
        by_cases hc : b.max i - b.min i < b.max a - b.min a
        · refine ⟨a, ?_, hlow.trans hc, ?_⟩
          · simp [Box.maxSideStep, hc]
          · simp [Box.maxSideStep, Box.map, hi.2 hc]
        · refine ⟨i, ?_, hlow, ?_⟩
          · simp only [Box.maxSideStep, gt_iff_lt, if_neg hc]
          · simp only [Box.maxSideStep, Box.map, gt_iff_lt, if_neg (mt hi.1 hc)]
      · have hi := h.side_low (b.max a) (b.min a) (hb a).2 (hb a).1
        by_cases hc : N.low < b.max a - b.min a
        · left
          refine ⟨a, ?_, hc, ?_⟩
          · simp [Box.maxSideStep, hc]
          · simp [Box.maxSideStep, Box.map, hi.2 hc]
        · right
          refine ⟨?_, ?_⟩
          · simp only [Box.maxSideStep, gt_iff_lt, if_neg hc]
          · simp only [Box.maxSideStep, Box.map, gt_iff_lt, if_neg (mt hi.1 hc)]
  exact key _ _ _ (Or.inr ⟨rfl, rfl⟩)

/-- The image of a splitter result. -/
def _root_.Pico.Split.map (e : α → γ) (s : Split α d) : Split γ d := ⟨s.seg, s.pos, s.dim, e s.val⟩

theorem coordLt {pts : Nat → Pt α d} (hp : ∀ i j, V (pts i j)) (dim : Fin d) :
    coordLt (fun i j => e (pts i j)) dim = coordLt pts dim := by
  funext a b
  unfold Pico.coordLt
  simp only [h.lt _ _ (h.sub _ (hp a dim)) (h.sub _ (hp b dim))]

theorem nthSplit {pts : Nat → Pt α d} (hp : ∀ i j, V (pts i j)) (S : Std) (dim : Fin d) (k : Nat)
    (seg : List Nat) :
    nthSplit S (fun i j => e (pts i j)) dim k seg = (nthSplit S pts dim k seg).map (Split.map e) ∧
      ∀ sp, Pico.nthSplit S pts dim k seg = .ok sp → V sp.val := by
  unfold Pico.nthSplit
  rw [h.coordLt hp]
  dsimp only
  cases hk : (S.nth (Pico.coordLt pts dim) k seg)[k]? with
  | none => exact ⟨rfl, by simp⟩
  | some i =>
    refine ⟨rfl, ?_⟩
    rintro sp ⟨⟩
    exact hp i dim

theorem splitter {C : BuildCfg α d β} {C' : BuildCfg γ d β'} (hN : C.N = N) (hN' : C'.N = N')
    (hrule : C.rule = rule) (hrule' : C'.rule = rule) (hS : C'.S = C.S)
    (hpts : C'.pts = fun i j => e (C.pts i j)) (hp : ∀ i j, V (C.pts i j)) (seg : List Nat) {box : Box α d}
    (hb : box.All V) :
    splitter C' seg (box.map e) = (splitter C seg box).map (Split.map e) ∧
      ∀ sp, Pico.splitter C seg box = .ok sp → V sp.val := by
  unfold Pico.splitter
  rw [hrule, hrule', hS, hpts, hN, hN']
  cases hr : rule with
  | median =>
    simp only [splitMedian]
    rcases h.maxSide hb with ⟨i, h1, h2, h3⟩ | ⟨h1, h3⟩
    · rw [h1, h3]
      exact h.nthSplit hp _ _ _ _
    · rw [h1, h3]
      exact ⟨rfl, by simp⟩
  | midpoint =>
    simp only [splitMidpoint]
    rcases h.maxSide hb with ⟨i, h1, h2, h3⟩ | ⟨h1, h3⟩
    · rw [h1, h3]
      obtain ⟨m1, m2⟩ := h.mul hr (box.min i) (box.max i) (hb i).1 (hb i).2 h2
      dsimp only [Box.map]
      rw [m2]
      have : coordBelow (fun i j => e (C.pts i j)) i (e (N.mulHalf (box.max i - box.min i) + box.min i)) =
          coordBelow C.pts i (N.mulHalf (box.max i - box.min i) + box.min i) := by
        funext a
        unfold coordBelow
        simp only [h.lt _ _ (h.sub _ (hp a i)) (h.sub _ m1)]
      rw [this]
      refine ⟨rfl, ?_⟩
      rintro sp ⟨⟩
      exact m1
    · rw [h1, h3]
      exact ⟨rfl, by simp⟩
  | sliding =>
    simp only [splitSliding_eq]
    rcases h.maxSide hb with ⟨i, h1, h2, h3⟩ | ⟨h1, h3⟩
    · rw [h1, h3]
      dsimp only [Box.map]
      set m := N.divTwo (box.max i - box.min i) + box.min i with hm
      generalize hm' : N'.divTwo (e (box.max i) - e (box.min i)) + e (box.min i) = m'
      have hbelow : coordBelow (fun i j => e (C.pts i j)) i m' = coordBelow C.pts i m := by
        funext a
        unfold coordBelow
        simp only [h.div hr (box.min i) (box.max i) (C.pts a i) (hb i).1 (hb i).2 (hp a i) h2, ← hm', hm]
      rw [hbelow]
      have hperm := C.S.partition_perm (coordBelow C.pts i m) seg
      have hle := C.S.partition_le (coordBelow C.pts i m) seg
      have hleft := C.S.partition_left (coordBelow C.pts i m) seg
      have hright := C.S.partition_right (coordBelow C.pts i m) seg
      generalize C.S.partition (coordBelow C.pts i m) seg = r at hperm hle hleft hright
      obtain ⟨seg', k⟩ := r
      dsimp only [slideAt] at hperm hle hleft hright ⊢
      rw [← hperm.length_eq] at hle
      by_cases hk : k = seg'.length
      · rw [if_pos hk, if_pos hk]
        cases k with
        | zero => exact ⟨rfl, by simp⟩
        | succ k => exact h.nthSplit hp _ _ _ _
      · rw [if_neg hk, if_neg hk]
        by_cases hk0 : k = 0
        · rw [if_pos hk0, if_pos hk0]
          exact h.nthSplit hp _ _ _ _
        · rw [if_neg hk0, if_neg hk0]
          obtain ⟨z, hz⟩ : ∃ z, z ∈ seg'.take k := by
            refine List.exists_mem_of_ne_nil _ fun hc => ?_
            have := congrArg List.length hc
            simp only [List.length_take, List.length_nil] at this
            omega
          obtain ⟨w, hw⟩ : ∃ w, w ∈ seg'.drop k := by
            refine List.exists_mem_of_ne_nil _ fun hc => ?_
            have := congrArg List.length hc
            simp only [List.length_drop, List.length_nil] at this
            omega
          have hz' := hleft z hz
          have hw' := hright w hw
          simp only [coordBelow, decide_eq_true_eq, decide_eq_false_iff_not] at hz' hw'
          obtain ⟨m1, m2⟩ := h.div_in hr (box.min i) (box.max i) _ _ (hb i).1 (hb i).2 (hp z i) (hp w i) h2 hz' hw'
          refine ⟨?_, ?_⟩
          · simp only [Outcome.map, Split.map]
            rw [← hm', m2]
          · rintro sp ⟨⟩
            exact m1
    · rw [h1, h3]
      exact ⟨rfl, by simp⟩

theorem leafBox {C : BuildCfg α d β} {C' : BuildCfg γ d β'} (hN : C.N = N) (hN' : C'.N = N')
    (hrule : C'.rule = C.rule) (hpts : C'.pts = fun i j => e (C.pts i j)) (hp : ∀ i j, V (C.pts i j))
    (seg : List Nat) {box : Box α d} (hb : box.All V) :
    leafBox C' seg (box.map e) = (leafBox C seg box).map e ∧ (Pico.leafBox C seg box).All W := by
  have hc := h.computeBoundingBox (fun i j => h.sub _ (hp i j)) seg
  unfold Pico.leafBox
  rw [hrule, hpts, hN, hN']
  cases C.rule with
  | median => exact hc
  | sliding => exact hc
  | midpoint =>
    dsimp only
    split_ifs
    · exact hc
    · exact ⟨rfl, fun j => ⟨h.sub _ (hb j).1, h.sub _ (hb j).2⟩⟩

theorem setMax {box : Box α d} (hb : box.All V) (dim : Fin d) {v : α} (hv : V v) :
    (box.map e).setMax dim (e v) = (box.setMax dim v).map e ∧ (box.setMax dim v).All V := by
  constructor
  · unfold Box.setMax Box.map
    congr 1
    funext j
    by_cases hj : j = dim
    · subst hj; simp
    · simp [Function.update_of_ne hj]
  · intro j
    refine ⟨(hb j).1, ?_⟩
    by_cases hj : j = dim
    · subst hj; simpa [Box.setMax] using hv
    · simpa [Box.setMax, Function.update_of_ne hj] using (hb j).2

theorem setMin {box : Box α d} (hb : box.All V) (dim : Fin d) {v : α} (hv : V v) :
    (box.map e).setMin dim (e v) = (box.setMin dim v).map e ∧ (box.setMin dim v).All V := by
  constructor
  · unfold Box.setMin Box.map
    congr 1
    funext j
    by_cases hj : j = dim
    · subst hj; simp
    · simp [Function.update_of_ne hj]
  · intro j
    refine ⟨?_, (hb j).2⟩
    by_cases hj : j = dim
    · subst hj; simpa [Box.setMin] using hv
    · simpa [Box.setMin, Function.update_of_ne hj] using (hb j).1

/-- `create_node` commutes with the map. -/
theorem createNode {C : BuildCfg α d β} {C' : BuildCfg γ d β'} (hN : C.N = N) (hN' : C'.N = N')
    (hrule : C.rule = rule) (hrule' : C'.rule = rule) (hS : C'.S = C.S) (hstop : C'.stop = C.stop)
    (hbits : C'.indexBits = C.indexBits) (hpts : C'.pts = fun i j => e (C.pts i j))
    (f : β → β') (hf : ∀ bl br dim, C'.setBranch (bl.map e) (br.map e) dim = f (C.setBranch bl br dim))
    (hp : ∀ i j, V (C.pts i j)) (fuel : Nat) : ∀ (depth : Int) (o : Nat) (seg : List Nat) (box : Box α d),
      box.All V →
      createNode C' fuel depth o seg (box.map e) =
        (createNode C fuel depth o seg box).map (fun x => (x.1.map f, x.2.1, x.2.2.map e)) ∧
      ∀ x, Pico.createNode C fuel depth o seg box = .ok x → x.2.2.All W := by
  induction fuel with
  | zero => intro depth o seg box _; exact ⟨rfl, by simp [Pico.createNode]⟩
  | succ fuel ih =>
    intro depth o seg box hb
    have hl : isLeaf C' depth seg.length = isLeaf C depth seg.length := by
      unfold isLeaf
      rw [hstop, hbits]
    unfold Pico.createNode
    rw [hl]
    cases isLeaf C depth seg.length with
    | true =>
      simp only [if_true]
      obtain ⟨h1, h2⟩ := h.leafBox (C' := C') hN hN' (hrule'.trans hrule.symm) hpts hp seg hb
      rw [h1]
      refine ⟨rfl, ?_⟩
      rintro x ⟨⟩
      exact h2
    | false =>
      simp only [Bool.false_eq_true, if_false]
      obtain ⟨h1, h2⟩ := h.splitter (C' := C') hN hN' hrule hrule' hS hpts hp seg hb
      rw [h1]
      cases hs : Pico.splitter C seg box with
      | ub => exact ⟨rfl, by simp [Outcome.bind]⟩
      | oof => exact ⟨rfl, by simp [Outcome.bind]⟩
      | ok sp =>
        simp only [Outcome.map, Outcome.bind, Split.map]
        have hv := h2 sp hs
        obtain ⟨a1, a2⟩ := h.setMax hb sp.dim hv
        obtain ⟨b1, b2⟩ := h.setMin hb sp.dim hv
        obtain ⟨c1, c2⟩ := ih (depth + 1) o (sp.seg.take sp.pos) _ a2
        obtain ⟨d1, d2⟩ := ih (depth + 1) (o + sp.pos) (sp.seg.drop sp.pos) _ b2
        rw [a1, b1, c1]
        cases hL : Pico.createNode C fuel (depth + 1) o (sp.seg.take sp.pos) (box.setMax sp.dim sp.val) with
        | ub => exact ⟨rfl, by simp⟩
        | oof => exact ⟨rfl, by simp⟩
        | ok x =>
          obtain ⟨l, segL, boxL⟩ := x
          have hWL := c2 _ hL
          simp only [Outcome.map]
          rw [d1]
          cases hR : Pico.createNode C fuel (depth + 1) (o + sp.pos) (sp.seg.drop sp.pos)
              (box.setMin sp.dim sp.val) with
          | ub => exact ⟨rfl, by simp⟩
          | oof => exact ⟨rfl, by simp⟩
          | ok y =>
            obtain ⟨r, segR, boxR⟩ := y
            have hWR := d2 _ hR
            simp only [Outcome.map]
            obtain ⟨e1, e2⟩ := h.fitBox hWL hWR
            refine ⟨?_, ?_⟩
            · rw [hf, e1]
              rfl
            · rintro x ⟨⟩
              exact e2

/-- The start box commutes with the map. -/
theorem boxFromBounds {pts : Nat → Pt α d} (hp : ∀ i j, V (pts i j)) (n : Nat) {b : Bounds α d}
    (hb : ∀ mn mx, b = .given mn mx → ∀ j, V (mn j) ∧ V (mx j)) :
    boxFromBounds N' (fun i j => e (pts i j)) n (b.map e) = (boxFromBounds N pts n b).map e := by
  cases b with
  | fromSpace =>
    simp only [Pico.boxFromBounds, Bounds.map]
    rw [h.inverseMax.1]
    exact (h.foldl_fitPt (fun i j => h.sub _ (hp i j)) _ h.inverseMax.2).1
  | given mn mx =>
    simp only [Pico.boxFromBounds, Bounds.map]
    rw [h.inverseMax.1]
    obtain ⟨h1, h2⟩ := h.fitPt (d := d) h.inverseMax.2 (x := mn) (fun j => h.sub _ (hb mn mx rfl j).1)
    rw [h1]
    exact (h.fitPt h2 (x := mx) (fun j => h.sub _ (hb mn mx rfl j).2)).1

/-- The constructor commutes with the map. -/
theorem make {tag : SpaceTag α d β} {tag' : SpaceTag γ d β'} {M : Metric α d} {M' : Metric γ d}
    {pts : Nat → Pt α d} {n : Nat} {o : BuildOpts α d} (hrule : o.rule = rule) (f : β → β')
    (hf : ∀ bl br dim, tag'.setBranch (bl.map e) (br.map e) dim = f (tag.setBranch bl br dim))
    (hp : ∀ i j, V (pts i j)) (hb : ∀ mn mx, o.bounds = .given mn mx → ∀ j, V (mn j) ∧ V (mx j))
    (hroot : (Pico.boxFromBounds N pts n o.bounds).All V) (fuel : Nat) :
    KdTree.make tag' M' N' (fun i j => e (pts i j)) n (o.map e) fuel =
      (KdTree.make tag M N pts n o fuel).map fun T => ⟨tag', M', N', fun i j => e (pts i j), n, T.data.map e f⟩ := by
  unfold KdTree.make buildTree
  dsimp only [KdTree.cfg, BuildOpts.map]
  rw [h.boxFromBounds hp n hb]
  obtain ⟨h1, _⟩ := h.createNode (C := KdTree.cfg tag N pts o)
    (C' := KdTree.cfg tag' N' (fun i j => e (pts i j)) (o.map e)) rfl rfl hrule hrule rfl rfl rfl rfl f hf hp fuel
    0 0 (List.range n) _ hroot
  dsimp only [KdTree.cfg, BuildOpts.map] at h1
  rw [h1]
  generalize Pico.createNode _ fuel 0 0 (List.range n) (Pico.boxFromBounds N pts n o.bounds) = r
  cases r <;> rfl

end Embeds

end

end Pico
