import Verif.Model.PyTree
import Verif.Props.PyCount
import Verif.Props.Dispatch
import Verif.Props.Stream

/-! # Trees of the Python bindings -/

set_option linter.unusedSectionVars false

namespace Pico

open Spec Pico.Bind

section Congr
variable {α : Type} [LinearOrder α] {n k : Nat} {f g : Nat → α}

theorem Spec.all_congr (h : ∀ i < n, f i = g i) : Spec.all n f = Spec.all n g :=
  List.map_congr_left fun i hi => by rw [h i (List.mem_range.1 hi)]

theorem Spec.smallest_congr (h : ∀ i < n, f i = g i) : Spec.smallest n k f = Spec.smallest n k g := by
  unfold Spec.smallest
  rw [List.map_congr_left fun i hi => h i (List.mem_range.1 hi)]

theorem Spec.IsKnn.congr (h : ∀ i < n, f i = g i) {r : List (Neighbor α)} (hr : IsKnn n k f r) : IsKnn n k g r :=
  ⟨hr.length, hr.sorted, by rw [← Spec.all_congr h]; exact hr.rest⟩

theorem Spec.IsRadius.congr (h : ∀ i < n, f i = g i) {x : α} {r : List (Neighbor α)} (hr : IsRadius n f x r) :
    IsRadius n g x r := by
  unfold Spec.IsRadius
  rw [← Spec.all_congr h]
  exact hr

end Congr

section CongrField
variable {α : Type} [Field α] [LinearOrder α] {n k : Nat} {f g : Nat → α}

theorem Spec.IsApproxKnn.congr (h : ∀ i < n, f i = g i) {e : α} {r : List (Neighbor α)} (hr : IsApproxKnn n k f e r) :
    IsApproxKnn n k g e r := by
  refine ⟨hr.length, hr.sorted, hr.distinct, fun a ha => ?_, fun i hi hi' => ?_⟩
  · obtain ⟨h1, h2⟩ := hr.genuine a ha
    exact ⟨h1, h2.trans (h _ h1)⟩
  · rw [← h _ (hr.genuine _ (List.getElem_mem hi)).1]
    have := hr.ratio i hi (by rw [Spec.smallest_congr h]; exact hi')
    simpa only [Spec.smallest_congr h] using this

theorem Spec.IsApproxRadius.congr (h : ∀ i < n, f i = g i) {x e : α} {r : List (Neighbor α)}
    (hr : IsApproxRadius n f x e r) : IsApproxRadius n g x e r := by
  refine ⟨hr.distinct, fun a ha => ?_, fun i hi hx => hr.complete i hi (by rw [h i hi]; exact hx)⟩
  obtain ⟨h1, h2, h3⟩ := hr.sound a ha
  exact ⟨h1, h2.trans (h _ h1), by rw [← h _ h1]; exact h3⟩

end CongrField

section Coords
variable {α : Type} [LinearOrder α] [Add α] [Sub α] {d : Nat} {N : Num α} {pts : Nat → Pt α d} {n : Nat}

/-- All coordinates of a box have a property. -/
def Box.Whole (p : α → Prop) (b : Box α d) : Prop := ∀ j, p (b.min j) ∧ p (b.max j)

theorem Box.Whole.fitPt {p : α → Prop} {b : Box α d} (h : b.Whole p) {x : Pt α d} (hx : ∀ j, p (x j)) :
    (b.fitPt x).Whole p := by
  intro j
  refine ⟨?_, ?_⟩
  · show p (if x j < b.min j then x j else b.min j)
    split
    · exact hx j
    · exact (h j).1
  · show p (if x j > b.max j then x j else b.max j)
    split
    · exact hx j
    · exact (h j).2

theorem Box.Whole.fitBox {p : α → Prop} {b x : Box α d} (h : b.Whole p) (hx : x.Whole p) : (b.fitBox x).Whole p := by
  intro j
  refine ⟨?_, ?_⟩
  · show p (if x.min j < b.min j then x.min j else b.min j)
    split
    · exact (hx j).1
    · exact (h j).1
  · show p (if x.max j > b.max j then x.max j else b.max j)
    split
    · exact (hx j).2
    · exact (h j).2

theorem foldl_fitPt_all {p : α → Prop} (l : List Nat) (hl : ∀ i ∈ l, ∀ j, p (pts i j)) (b : Box α d) (hb : b.Whole p) :
    (l.foldl (fun b i => b.fitPt (pts i)) b).Whole p := by
  induction l generalizing b with
  | nil => exact hb
  | cons i l ih =>
    exact ih (fun k hk => hl k (List.mem_cons_of_mem _ hk)) _ (hb.fitPt (hl i List.mem_cons_self))

/-- All scalars that are stored in the nodes of a Euclidean tree are coordinates of points or limits of the type. -/
theorem fits_of_created_coords {P : Platform α} {C : BuildCfg α d (Branch1 α d)} (hC : C.setBranch = setBranchEuclidean)
    (hr : C.rule ≠ .midpoint) {depth : Int} {off : Nat} {seg : List Nat} {box : Box α d} {t : Tree (Branch1 α d)}
    {seg' : List Nat} {box' : Box α d} (h : Created C depth off seg box t seg' box') (hp : P.Holds n d)
    (hn : off + seg.length ≤ n) (hs : ∀ i ∈ seg, ∀ j, P.scalar.Good (C.pts i j)) (hbig : P.scalar.Good C.N.big)
    (hlow : P.scalar.Good C.N.low) : t.Fits P (P.branch1 d) ∧ box'.Whole P.scalar.Good := by
  induction h with
  | leaf hl =>
    refine ⟨⟨hp.index _ (by omega), hp.index _ hn⟩, ?_⟩
    have : ∀ (seg : List Nat) (box : Box α d), leafBox C seg box = computeBoundingBox C.N C.pts seg := by
      intro seg box
      unfold leafBox
      cases hC : C.rule with
      | midpoint => exact (hr hC).elim
      | median => rfl
      | sliding => rfl
    rw [this]
    exact foldl_fitPt_all _ hs _ fun j => ⟨hbig, hlow⟩
  | branch hl hsp _ _ ih1 ih2 =>
    have h1 := splitter_take_length hsp
    have h2 := splitter_drop_length hsp
    obtain ⟨h3, -⟩ := splitter_ok hsp
    have h4 := h3.pos_le
    obtain ⟨g1, b1⟩ := ih1 (by omega) fun i hi => hs i (h3.perm.mem_iff.1 (List.mem_of_mem_take hi))
    obtain ⟨g2, b2⟩ := ih2 (by omega) fun i hi => hs i (h3.perm.mem_iff.1 (List.mem_of_mem_drop hi))
    refine ⟨⟨?_, g1, g2⟩, b1.fitBox b2⟩
    rw [hC]
    exact good_branch1 (hp.splitDim _ (Fin.isLt _)) (b1 _).2 (b2 _).1

/-- The tree data are representable if the coordinates of the points and the limits of the scalar type are. -/
theorem fits_of_make_coords [Zero α] [One α] [Neg α] {P : Platform α} {M : Metric α d} {o : BuildOpts α d} {fuel : Nat}
    {T : KdTree α d (Branch1 α d)} (h : KdTree.make (euclideanTag α d) M N pts n o fuel = .ok T) (hr : o.rule ≠ .midpoint)
    (hb : o.bounds = .fromSpace) (hp : P.Holds n d) (hs : ∀ i < n, ∀ j, P.scalar.Good (pts i j))
    (hbig : P.scalar.Good N.big) (hlow : P.scalar.Good N.low) : T.data.Fits P (P.branch1 d) := by
  obtain ⟨box, hc⟩ := Props.created_of_make h
  have hperm := (Props.c16_partition h).1
  obtain ⟨-, -, -, -, -, hbuild⟩ := KdTree.make_ok h
  have hbox : T.data.rootBox = boxFromBounds N pts n o.bounds := by
    unfold buildTree at hbuild
    simp only [KdTree.cfg] at hbuild
    cases hcr : createNode (KdTree.cfg (euclideanTag α d) N pts o) fuel 0 0 (List.range n)
        (boxFromBounds N pts n o.bounds) with
    | ub => simp only [KdTree.cfg] at hcr; simp [hcr, Outcome.bind] at hbuild
    | oof => simp only [KdTree.cfg] at hcr; simp [hcr, Outcome.bind] at hbuild
    | ok r =>
      simp only [KdTree.cfg] at hcr
      simp only [hcr, Outcome.bind, Outcome.ok.injEq] at hbuild
      rw [← hbuild]
  have hall : T.data.rootBox.Whole P.scalar.Good := by
    rw [hbox, hb]
    exact foldl_fitPt_all _ (fun i hi => hs i (List.mem_range.1 hi)) _ fun j => ⟨hbig, hlow⟩
  refine ⟨hp.dim, ?_, ?_, fun j => (hall j).1, fun j => (hall j).2, ?_, hp.bool⟩
  · rw [hperm.length_eq, List.length_range]
    exact hp.length
  · intro i hi
    exact hp.index i (List.mem_range.1 (hperm.mem_iff.1 hi)).le
  · exact (fits_of_created_coords rfl hr hc hp (by simp) (fun i hi => hs i (List.mem_range.1 hi)) hbig hlow).1

end Coords

section
variable {α F : Type} [LinearOrder α] [Zero α] [One α] [Add α] [Sub α] [Neg α] [Mul α] [Div α]

/-- The compile time dimension for a dimension. -/
def dimFor (d : Nat) : Option Nat := if d = 2 then some 2 else if d = 3 then some 3 else none

theorem dimFor_or (d : Nat) : dimFor d = none ∨ dimFor d = some d := by
  unfold dimFor
  by_cases h2 : d = 2
  · subst h2; exact .inr rfl
  · by_cases h3 : d = 3
    · subst h3; exact .inr rfl
    · rw [if_neg h2, if_neg h3]; exact .inl rfl

/-- The view of an array of points. -/
theorem treeMap_of_points {a : NArray α} {n d : Nat} (hv : Valid a) (hp : Points a n d) :
    ∃ m, treeMap a = .ok (dimFor d, m) ∧ m.size = n ∧ m.sdim = d ∧
      ∀ i < n, ∃ x : Pt α d, m.point d i = some x ∧ IsPoint a i x := by
  obtain ⟨m, h1, h2, h3, -, -, -, h4⟩ := makeMap_of_points hv hp (dimFor_or d)
  refine ⟨m, ?_, h2, h3, h4⟩
  have hi : a.innerStride = some d := by
    unfold NArray.innerStride
    rcases hp with ⟨g1, g2⟩ | ⟨g1, g2, g3⟩
    · simp [g1, g2]
    · simp [g1, g3]
  have hc : chooseDim a = .ok (dimFor d) := by
    unfold chooseDim dimFor
    rw [hi]
    dsimp only
    split
    · rfl
    · split <;> rfl
  unfold treeMap
  rw [hc]
  simp only [Call.bind, h1]

/-- The points behind it. -/
theorem points_of_points {a : NArray α} {m : SpaceMap α} {n : Nat} (hs : m.size = n)
    (h : ∀ i < n, ∃ x : Pt α m.sdim, m.point m.sdim i = some x ∧ IsPoint a i x) :
    ∃ f, m.points = some f ∧ (∀ i < n, IsPoint a i (f i)) ∧ ∀ i, n ≤ i → f i = fun _ => 0 := by
  subst hs
  unfold SpaceMap.points
  rw [if_pos fun i hi => by obtain ⟨x, hx, -⟩ := h i hi; rw [hx]; rfl]
  refine ⟨_, rfl, fun i hi => ?_, fun i hi => ?_⟩
  · obtain ⟨x, hx, hp⟩ := h i hi
    simpa only [if_pos hi, hx, Option.getD_some] using hp
  · simp only [if_neg (not_lt.2 hi)]

/-- What is known about the tree of an array, however it was made. -/
structure Over (E : PyEnv α F) (m : PyMetric) (a : NArray α) (n d : Nat) (T : PyTree α) : Prop where
  sdim : T.space.sdim = d
  npts : T.space.size = n
  dtype : T.dtype = a.dtype
  float : a.dtype = .float32 ∨ a.dtype = .float64
  metric : T.metric = m
  dim : T.Dim = dimFor d
  rows : ∀ t < n, IsPoint a t (T.tree.pts t)
  beyond : ∀ t, n ≤ t → T.tree.pts t = fun _ => 0
  built : ∃ leaf fuel, KdTree.make (euclideanTag α T.space.sdim) (pyMetric T.space.sdim m) (E.num a.dtype) T.tree.pts n
    ⟨E.std, .sliding, .maxLeafSize leaf, .fromSpace, 32⟩ fuel = .ok T.tree

/-- The constructor. -/
theorem over_of_make {E : PyEnv α F} {m : PyMetric} {a : NArray α} {leaf fuel n d : Nat} {T : PyTree α} (hv : Valid a)
    (hp : Points a n d) (h : PyTree.make E a m leaf fuel = .ok T) : Over E m a n d T := by
  unfold PyTree.make openSpace at h
  split at h
  · next hdt =>
    obtain ⟨M, h1, h2, h3, h4⟩ := treeMap_of_points hv hp
    subst h3
    obtain ⟨f, g1, g2, g3⟩ := points_of_points h2 h4
    rw [h1] at h
    simp only [Call.bind, g1] at h
    rw [h2] at h
    cases hm : KdTree.make (euclideanTag α M.sdim) (pyMetric M.sdim m) (E.num a.dtype) f n
        ⟨E.std, .sliding, .maxLeafSize leaf, .fromSpace, 32⟩ fuel with
    | ub => rw [hm] at h; simp [Call.ofOutcome] at h
    | oof => rw [hm] at h; simp [Call.ofOutcome] at h
    | ok t =>
      rw [hm] at h
      simp only [Call.ofOutcome, Call.ok.injEq] at h
      subst h
      have hpts : t.pts = f := (KdTree.make_ok hm).2.2.2.1
      exact ⟨rfl, h2, rfl, hdt, rfl, rfl, by rw [hpts]; exact g2, by rw [hpts]; exact g3, leaf, fuel,
        by rw [hpts]; exact hm⟩
  · simp [Call.bind] at h

/-- The constructor succeeds if the construction of the tree does. -/
theorem make_of_build {E : PyEnv α F} {m : PyMetric} {a : NArray α} {leaf n d : Nat} (hv : Valid a)
    (hp : Points a n d) (hdt : a.dtype = .float32 ∨ a.dtype = .float64)
    (h : ∀ f : Nat → Pt α d, (∀ i < n, IsPoint a i (f i)) → ∃ fuel t, KdTree.make (euclideanTag α d) (pyMetric d m)
      (E.num a.dtype) f n ⟨E.std, .sliding, .maxLeafSize leaf, .fromSpace, 32⟩ fuel = .ok t) :
    ∃ fuel T, PyTree.make E a m leaf fuel = .ok T := by
  obtain ⟨M, h1, h2, h3, h4⟩ := treeMap_of_points hv hp
  subst h3
  obtain ⟨f, g1, g2, g3⟩ := points_of_points h2 h4
  obtain ⟨fuel, t, ht⟩ := h f g2
  refine ⟨fuel, ⟨a.dtype, m, dimFor M.sdim, M, t⟩, ?_⟩
  unfold PyTree.make openSpace
  rw [if_pos hdt, h1]
  simp only [Call.bind, g1]
  rw [h2, ht]
  rfl

/-- Two arrays of the same scalar type hold the same points. -/
structure SamePoints (a b : NArray α) (n d : Nat) : Prop where
  left : Valid a ∧ Points a n d
  right : Valid b ∧ Points b n d
  dtype : b.dtype = a.dtype
  rows : ∀ i < n, ∀ x : Fin d → α, IsPoint a i x → IsPoint b i x

/-- The file format holds the points of an array. -/
structure Storable (E : PyEnv α F) (P : DType → Platform α) (a : NArray α) (n d : Nat) : Prop where
  holds : (P a.dtype).Holds n d
  coords : ∀ i < n, ∀ x : Fin d → α, IsPoint a i x → ∀ j, (P a.dtype).scalar.Good (x j)
  big : (P a.dtype).scalar.Good (E.num a.dtype).big
  low : (P a.dtype).scalar.Good (E.num a.dtype).low

/-- Loading what was saved. -/
theorem load_of_save {E : PyEnv α F} {P : DType → Platform α} {m : PyMetric} {a b : NArray α} {n d : Nat} {T : PyTree α}
    (hT : Over E m a n d T) (hab : SamePoints a b n d) (hs : Storable E P a n d)
    (pad : Nat → Byte) (junk : Fin 3 → Nat → Byte) (rest : List Byte)
    (fuel : Nat) (hf : (T.save pad P ++ rest).length < fuel) :
    ∃ T', PyTree.load E P junk b fuel (T.save pad P ++ rest) = .ok T' ∧ Over E m b n d T' := by
  obtain ⟨⟨hva, hpa⟩, ⟨hvb, hpb⟩, hd, hrows⟩ := hab
  obtain ⟨dt, m', Dim, ⟨buf, dat, size, sdim, rm⟩, tree⟩ := T
  obtain ⟨h1, h2, h3, hdt, h4, h5, h6, h7, leaf, fuel', h8⟩ := hT
  dsimp only at h1 h2 h3 h4 h5 h6 h7 h8 hf ⊢
  subst h1 h2 h3 h4 h5
  have hfit : tree.data.Fits (P a.dtype) ((P a.dtype).branch1 sdim) :=
    fits_of_make_coords h8 nofun rfl hs.holds (fun i hi => hs.coords i hi _ (h6 i hi)) hs.big hs.low
  obtain ⟨M, g1, g2, g3, g4⟩ := treeMap_of_points hvb hpb
  obtain ⟨b1, e1, r1⟩ := load_save_static hfit hs.holds.flag pad (Props.headerBytes m')
  obtain ⟨b2, e2, r2⟩ := load_save_dynamic (branch := (P a.dtype).branch1) hfit hs.holds.flag pad (Props.headerBytes m')
  have hbb : b2 = b1 := by
    rw [e1] at e2
    exact (List.append_cancel_left e2).symm
  subst hbb
  have hsave : PyTree.save pad P ⟨a.dtype, m', dimFor sdim, ⟨buf, dat, size, sdim, rm⟩, tree⟩ = Props.headerBytes m' ++ b2 := by
    unfold PyTree.save pySave
    rw [Props.writeHeader_eq, List.nil_append]
    exact e1
  rw [hsave] at hf ⊢
  have hh : readHeader junk (Props.headerBytes m' ++ b2 ++ rest) = .ok m' (b2 ++ rest) :=
    (Props.c30_accepts_iff _ _ _ _).2 (List.append_assoc _ _ _)
  have hl : (b2 ++ rest).length < fuel := by
    simp only [List.length_append] at hf ⊢
    omega
  obtain ⟨buf', dat', size', sdim', rm'⟩ := M
  dsimp only at g2 g3 g4
  subst g2 g3
  obtain ⟨f, k1, k2, k3⟩ := points_of_points (m := ⟨buf', dat', size', sdim', rm'⟩) rfl g4
  have hpts : f = tree.pts := by
    funext i
    by_cases hi : i < size'
    · exact isPoint_unique (k2 i hi) (hrows i hi _ (h6 i hi))
    · rw [k3 i (not_lt.1 hi), h7 i (not_lt.1 hi)]
  have hload : loadFor (P b.dtype) (dimFor sdim') sdim' fuel (b2 ++ rest) = .ok tree.data := by
    rw [hd]
    unfold loadFor
    cases dimFor sdim' with
    | some D => simp only [r1 rest fuel hl, Call.ofLoad]
    | none => simp only [r2 rest fuel hl, Call.ofLoad, Call.bind, dif_pos]
  obtain ⟨q1, q2, q3, q4, q5, -⟩ := KdTree.make_ok h8
  refine ⟨⟨b.dtype, m', dimFor sdim', ⟨buf', dat', size', sdim', rm'⟩,
    ⟨euclideanTag α sdim', pyMetric sdim' m', E.num b.dtype, f, size', tree.data⟩⟩, ?_, ?_⟩
  · unfold PyTree.load openSpace
    rw [hh]
    dsimp only
    rw [if_pos (by rw [hd]; exact hdt), g1]
    simp only [Call.bind, k1, hload]
  · have ht : (⟨euclideanTag α sdim', pyMetric sdim' m', E.num b.dtype, f, size', tree.data⟩ :
        KdTree α sdim' (Branch1 α sdim')) = tree := by
      obtain ⟨x1, x2, x3, x4, x5, x6⟩ := tree
      simp only at q1 q2 q3 q4 q5 hpts ⊢
      rw [q1, q2, q3, q5, hpts, hd]
    exact ⟨rfl, rfl, rfl, by rw [hd]; exact hdt, rfl, rfl, k2, k3, leaf, fuel', by
      dsimp only
      rw [ht, hd, hpts]
      exact h8⟩

end

end Pico
