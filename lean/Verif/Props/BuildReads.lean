import Verif.Model.BuildReads
import Verif.Props.Reads
import Verif.Props.Frame

/-! # Construction with every read of a coordinate checked (C147) -/

namespace Pico.Props

variable {α : Type} [LinearOrder α] [Zero α] [Sub α] [Add α] {d : Nat} {β : Type}

/-- All coordinates of the first `n` points can be read. -/
def Readable (d : Nat) (space : Nat → Reader α) (n : Nat) : Prop := ∀ i < n, ∀ j : Fin d, ∃ v, space i j = .ok v

omit [LinearOrder α] [Zero α] [Sub α] [Add α] in
theorem bindOk {τ υ : Type} {x : Outcome τ} {f : τ → Outcome υ} {b : υ} (h : x.bind f = .ok b) :
    ∃ a, x = .ok a ∧ f a = .ok b := by
  cases x with
  | ok a => exact ⟨a, rfl, h⟩
  | ub => cases h
  | oof => cases h

omit [LinearOrder α] [Sub α] [Add α] in
theorem values_of_ok {space : Nat → Reader α} {i : Nat} {j : Fin d} {v : α} (h : space i j = .ok v) :
    (values space : Nat → Pt α d) i j = v := by simp [values, h]

omit [LinearOrder α] [Sub α] [Add α] in
theorem Readable.eq {space : Nat → Reader α} {n : Nat} (h : Readable d space n) {i : Nat} (hi : i < n) (j : Fin d) :
    space i j = .ok ((values space : Nat → Pt α d) i j) := by
  obtain ⟨v, hv⟩ := h i hi j
  rw [hv, values_of_ok hv]

omit [LinearOrder α] [Sub α] [Add α] in
theorem readAll_ok {space : Nat → Reader α} {n : Nat} (h : Readable d space n) (dim : Fin d) (seg : List Nat)
    (hs : ∀ i ∈ seg, i < n) : readAll space dim seg = .ok () := by
  induction seg with
  | nil => rfl
  | cons i seg ih =>
    rw [readAll, h.eq (hs i (by simp)) dim]
    exact ih fun i hi => hs i (by simp [hi])

omit [Sub α] [Add α] in
theorem boundingC_ok (N : Num α) {space : Nat → Reader α} {n : Nat} (h : Readable d space n) (seg : List Nat)
    (hs : ∀ i ∈ seg, i < n) :
    (boundingC N space seg : Outcome (Box α d)) = .ok (computeBoundingBox N (values space) seg) := by
  have key : ∀ (seg : List Nat) (b : Box α d), (∀ i ∈ seg, i < n) →
      seg.foldl (fun (b : Outcome (Box α d)) i => b.bind fun b => fitC b (space i)) (.ok b)
        = .ok (seg.foldl (fun b i => b.fitPt ((values space : Nat → Pt α d) i)) b) := by
    intro seg
    induction seg with
    | nil => intro b _; rfl
    | cons i seg ih =>
      intro b hs
      rw [List.foldl_cons, List.foldl_cons, Outcome.bind_ok,
        fitC_eq _ _ (fun j => h.eq (hs i (by simp)) j)]
      exact ih _ fun i hi => hs i (by simp [hi])
  exact key seg _ hs

omit [Sub α] [Add α] in
theorem nthSplitC_ok (S : Std) {space : Nat → Reader α} {n : Nat} (h : Readable d space n) (dim : Fin d) (k : Nat)
    (seg : List Nat) (hs : ∀ i ∈ seg, i < n) :
    nthSplitC S space dim k seg = nthSplit S (values space) dim k seg := by
  unfold nthSplitC nthSplit
  rw [readAll_ok h dim seg hs, Outcome.bind_ok]
  cases hk : (S.nth (coordLt (values space : Nat → Pt α d) dim) k seg)[k]? with
  | none => simp [hk]
  | some i =>
    have hi : i < n := hs i ((S.nth_perm _ _ _ (strictWeak_coordLt _ _)).subset (List.mem_of_getElem? hk))
    simp [hk, h.eq hi dim, Outcome.bind_ok]

theorem splitterC_ok (C : BuildCfg α d β) {space : Nat → Reader α} {n : Nat} (h : Readable d space n)
    (hC : C.pts = values space) (seg : List Nat) (hs : ∀ i ∈ seg, i < n) (box : Box α d) :
    splitterC C space seg box = splitter C seg box := by
  unfold splitterC splitter
  cases C.rule with
  | median =>
    simp only [splitMedianC, splitMedian, hC]
    cases (box.maxSide C.N).1 with
    | none => rfl
    | some dim => exact nthSplitC_ok C.S h dim _ seg hs
  | midpoint =>
    simp only [splitMidpointC, splitMidpoint, hC]
    cases hm : box.maxSide C.N with
    | mk o delta =>
      cases o with
      | none => rfl
      | some dim => simp only [readAll_ok h dim seg hs, Outcome.bind_ok]
  | sliding =>
    simp only [splitSlidingC, splitSliding, hC]
    cases hm : box.maxSide C.N with
    | mk o delta =>
      cases o with
      | none => rfl
      | some dim =>
        have hp := C.S.partition_perm (coordBelow (values space) dim (C.N.divTwo delta + box.min dim)) seg
        have hs' := fun i hi => hs i (hp.subset hi)
        simp only [readAll_ok h dim seg hs, Outcome.bind_ok, nthSplitC_ok C.S h dim _ _ hs']
        rfl

theorem createNodeC_ok (C : BuildCfg α d β) {space : Nat → Reader α} {n : Nat} (h : Readable d space n)
    (hC : C.pts = values space) (fuel : Nat) (depth : Int) (off : Nat) (seg : List Nat) (hs : ∀ i ∈ seg, i < n)
    (box : Box α d) : createNodeC C space fuel depth off seg box = createNode C fuel depth off seg box := by
  induction fuel generalizing depth off seg box with
  | zero => rfl
  | succ fuel ih =>
    unfold createNodeC createNode
    split
    · have hb : leafBoxC C space seg box = .ok (leafBox C seg box) := by
        unfold leafBoxC leafBox
        rw [boundingC_ok C.N h seg hs, hC]
        cases C.rule with
        | midpoint => dsimp only; split <;> rfl
        | median => rfl
        | sliding => rfl
      rw [hb, Outcome.bind_ok]
    · rw [splitterC_ok C h hC seg hs]
      cases hsp : splitter C seg box with
      | ub => rfl
      | oof => rfl
      | ok sp =>
        obtain ⟨hl, hr⟩ := splitter_mem hsp
        simp only [Outcome.bind_ok]
        rw [ih _ _ _ (fun i hi => hs i (hl i hi))]
        congr 1
        funext x
        obtain ⟨l, segL, boxL⟩ := x
        dsimp only
        rw [ih _ _ _ (fun i hi => hs i (hr i hi))]

/-- If every coordinate can be read then construction is that of the points read, whatever it ends with. -/
theorem c147_build (tag : SpaceTag α d β) (M : Metric α d) (N : Num α) {space : Nat → Reader α} {n : Nat}
    (h : Readable d space n) (o : BuildOpts α d) (fuel : Nat) :
    KdTree.makeC tag M N space n o fuel = KdTree.make tag M N (values space) n o fuel := by
  have hn : ∀ i ∈ List.range n, i < n := fun i hi => List.mem_range.1 hi
  have hb : boxFromBoundsC N space n o.bounds = .ok (boxFromBounds N (values space) n o.bounds) := by
    cases o.bounds with
    | given mn mx => rfl
    | fromSpace => exact boundingC_ok N h _ hn
  unfold KdTree.makeC KdTree.make buildTree
  rw [hb, Outcome.bind_ok, createNodeC_ok _ h rfl _ _ _ _ hn]
  change (createNode _ _ _ _ _ (boxFromBounds N (values space) n o.bounds)).bind _ = _
  cases hc : createNode (KdTree.cfg tag N (values space) o) fuel 0 0 (List.range n)
      (boxFromBounds N (values space) n o.bounds) <;>
    · change _ = ((createNode (KdTree.cfg tag N (values space) o) fuel 0 0 (List.range n)
        (boxFromBounds N (values space) n o.bounds)).bind _).bind _
      rw [hc]
      rfl

/-- What the tree stores, for a standard library that looks only at the elements of its ranges, is then that of any
points whose coordinates are the ones in memory. -/
theorem c147_points (tag : SpaceTag α d β) (M : Metric α d) (N : Num α) {space : Nat → Reader α} {pts : Nat → Pt α d}
    {n : Nat} (h : Holds space pts n) (o : BuildOpts α d) (hS : o.S.Local) (fuel : Nat) :
    (KdTree.makeC tag M N space n o fuel).bind (fun T => .ok T.data)
      = buildTree (KdTree.cfg tag N pts o) n o.bounds fuel := by
  have hR : Readable d space n := fun i hi j => ⟨_, h i hi j⟩
  rw [c147_build tag M N hR]
  have hf := buildTree_frame (C := KdTree.cfg tag N (values space) o) (pts' := pts) (n := n) hS
    (fun i hi => funext fun j => values_of_ok (h i hi j)) o.bounds fuel
  unfold KdTree.make
  rw [hf]
  change (Outcome.bind (buildTree (KdTree.cfg tag N pts o) n o.bounds fuel) _).bind _ = _
  cases buildTree (KdTree.cfg tag N pts o) n o.bounds fuel <;> rfl

/-! ## Reads that are not possible -/

omit [Zero α] [Sub α] [Add α] in
theorem fitC_reads {b b' : Box α d} {p : Reader α} (h : fitC b p = .ok b') (j : Fin d) : ∃ v, p j = .ok v := by
  have stuck : ∀ (l : List (Fin d)) (x : Outcome (Box α d)), (∀ b, x ≠ .ok b) → ∀ b, l.foldl (fitStep p) x ≠ .ok b := by
    intro l
    induction l with
    | nil => intro x hx; exact hx
    | cons i l ih =>
      intro x hx
      refine ih _ ?_
      cases x with
      | ok b => exact absurd rfl (hx b)
      | ub => intro b; simp [fitStep, Outcome.bind]
      | oof => intro b; simp [fitStep, Outcome.bind]
  have key : ∀ (l : List (Fin d)) (b : Box α d), l.foldl (fitStep p) (.ok b) = .ok b' → ∀ j ∈ l, ∃ v, p j = .ok v := by
    intro l
    induction l with
    | nil => simp
    | cons i l ih =>
      intro b hb j hj
      rw [List.foldl_cons] at hb
      cases hi : p i with
      | ub => exact absurd hb (stuck l _ (by intro b; simp [fitStep, Outcome.bind, hi]) b')
      | oof => exact absurd hb (stuck l _ (by intro b; simp [fitStep, Outcome.bind, hi]) b')
      | ok v =>
        rcases List.mem_cons.1 hj with rfl | hj
        · exact ⟨v, hi⟩
        · rw [show fitStep p (.ok b) i = .ok _ by unfold fitStep; rw [Outcome.bind_ok, hi]; rfl] at hb
          exact ih _ hb j hj
  exact key _ b h j (List.mem_finRange j)

omit [Zero α] [Sub α] [Add α] in
theorem boundingC_stuck (space : Nat → Reader α) (seg : List Nat) (x : Outcome (Box α d)) (hx : ∀ b, x ≠ .ok b) :
    ∀ b, seg.foldl (fun (b : Outcome (Box α d)) i => b.bind fun b => fitC b (space i)) x ≠ .ok b := by
  induction seg generalizing x with
  | nil => exact hx
  | cons i seg ih =>
    refine ih _ ?_
    cases x with
    | ok b => exact absurd rfl (hx b)
    | ub => intro b; simp [Outcome.bind]
    | oof => intro b; simp [Outcome.bind]

omit [Zero α] [Sub α] [Add α] in
theorem boundingC_reads {N : Num α} {space : Nat → Reader α} {seg : List Nat} {b' : Box α d}
    (h : boundingC N space seg = .ok b') : ∀ i ∈ seg, ∀ j : Fin d, ∃ v, space i j = .ok v := by
  have key : ∀ (seg : List Nat) (b : Box α d),
      seg.foldl (fun (b : Outcome (Box α d)) i => b.bind fun b => fitC b (space i)) (.ok b) = .ok b' →
        ∀ i ∈ seg, ∀ j : Fin d, ∃ v, space i j = .ok v := by
    intro seg
    induction seg with
    | nil => simp
    | cons i seg ih =>
      intro b hb k hk
      rw [List.foldl_cons, Outcome.bind_ok] at hb
      cases hi : fitC b (space i) with
      | ub => rw [hi] at hb; exact absurd hb (boundingC_stuck space seg _ (by simp) b')
      | oof => rw [hi] at hb; exact absurd hb (boundingC_stuck space seg _ (by simp) b')
      | ok b1 =>
        rcases List.mem_cons.1 hk with rfl | hk
        · exact fitC_reads hi
        · rw [hi] at hb; exact ih b1 hb k hk
  exact key seg _ h

omit [Sub α] [Add α] in
theorem nthSplitC_perm {S : Std} {space : Nat → Reader α} {dim : Fin d} {k : Nat} {seg : List Nat} {sp : Split α d}
    (h : nthSplitC S space dim k seg = .ok sp) : sp.seg.Perm seg := by
  unfold nthSplitC at h
  obtain ⟨_, _, h⟩ := bindOk h
  dsimp only at h
  split at h
  · cases h
  · obtain ⟨v, _, h⟩ := bindOk h
    cases h
    exact S.nth_perm _ _ _ (strictWeak_coordLt _ _)

theorem splitterC_perm {C : BuildCfg α d β} {space : Nat → Reader α} {seg : List Nat} {box : Box α d} {sp : Split α d}
    (h : splitterC C space seg box = .ok sp) : sp.seg.Perm seg := by
  unfold splitterC at h
  cases hr : C.rule with
  | median =>
    simp only [hr, splitMedianC] at h
    split at h
    · cases h
    · exact nthSplitC_perm h
  | midpoint =>
    simp only [hr, splitMidpointC] at h
    split at h
    · cases h
    · obtain ⟨_, _, h⟩ := bindOk h
      cases h
      exact C.S.partition_perm _ _
  | sliding =>
    simp only [hr, splitSlidingC] at h
    split at h
    · cases h
    · obtain ⟨_, _, h⟩ := bindOk h
      split at h
      · split at h
        · cases h
        · exact (nthSplitC_perm h).trans (C.S.partition_perm _ _)
      · split at h
        · exact (nthSplitC_perm h).trans (C.S.partition_perm _ _)
        · cases h
          exact C.S.partition_perm _ _

theorem createNodeC_reads {C : BuildCfg α d β} {space : Nat → Reader α} {fuel : Nat} {depth : Int} {off : Nat}
    {seg : List Nat} {box : Box α d} {r : Tree β × List Nat × Box α d}
    (h : createNodeC C space fuel depth off seg box = .ok r) : ∀ i ∈ seg, ∀ j : Fin d, ∃ v, space i j = .ok v := by
  induction fuel generalizing depth off seg box r with
  | zero => cases h
  | succ fuel ih =>
    unfold createNodeC at h
    split at h
    · obtain ⟨b, hb, _⟩ := bindOk h
      intro i hi
      unfold leafBoxC at hb
      split at hb
      · rw [if_pos (List.length_pos_of_mem hi)] at hb
        exact boundingC_reads hb i hi
      · exact boundingC_reads hb i hi
    · obtain ⟨sp, hsp, h⟩ := bindOk h
      obtain ⟨⟨l, segL, boxL⟩, hl, h⟩ := bindOk h
      obtain ⟨⟨r', segR, boxR⟩, hr, h⟩ := bindOk h
      intro i hi
      have hm : i ∈ sp.seg.take sp.pos ++ sp.seg.drop sp.pos := by
        rw [List.take_append_drop]; exact (splitterC_perm hsp).mem_iff.2 hi
      rcases List.mem_append.1 hm with hm | hm
      · exact ih hl i hm
      · exact ih hr i hm

/-- Construction reads every coordinate of every point, with every rule, every stop condition and also with bounds that
are given: a tree comes out only if all of them are there. -/
theorem c147_exact {tag : SpaceTag α d β} {M : Metric α d} {N : Num α} {space : Nat → Reader α} {n : Nat}
    {o : BuildOpts α d} {fuel : Nat} {T : KdTree α d β} (h : KdTree.makeC tag M N space n o fuel = .ok T) :
    Readable d space n := by
  unfold KdTree.makeC at h
  obtain ⟨b, _, h⟩ := bindOk h
  obtain ⟨r, hr, _⟩ := bindOk h
  exact fun i hi => createNodeC_reads hr i (List.mem_range.2 hi)

omit [Sub α] [Add α] in
theorem boundingC_ub (N : Num α) {space : Nat → Reader α} (ho : ∀ i j, space i j ≠ .oof) {seg : List Nat} {i : Nat}
    (hi : i ∈ seg) {j : Fin d} (hj : space i j = .ub) : (boundingC N space seg : Outcome (Box α d)) = .ub := by
  have stuck : ∀ seg : List Nat,
      seg.foldl (fun (b : Outcome (Box α d)) i => b.bind fun b => fitC b (space i)) .ub = .ub := by
    intro seg
    induction seg with
    | nil => rfl
    | cons k seg ih => exact ih
  have key : ∀ (seg : List Nat) (b : Box α d), i ∈ seg →
      seg.foldl (fun (b : Outcome (Box α d)) i => b.bind fun b => fitC b (space i)) (.ok b) = .ub := by
    intro seg
    induction seg with
    | nil => simp
    | cons k seg ih =>
      intro b hm
      rw [List.foldl_cons, Outcome.bind_ok]
      by_cases hk : ∃ l : Fin d, space k l = .ub
      · obtain ⟨l, hl⟩ := hk
        rw [fitC_ub (space k) (ho k) hl]
        exact stuck seg
      · have hr : ∀ l : Fin d, space k l = .ok ((values space : Nat → Pt α d) k l) := by
          intro l
          cases hl : space k l with
          | ok v => rw [values_of_ok hl]
          | ub => exact absurd ⟨l, hl⟩ hk
          | oof => exact absurd hl (ho _ _)
        rw [fitC_eq _ _ hr]
        refine ih _ ((List.mem_cons.1 hm).resolve_left ?_)
        rintro rfl
        exact hk ⟨j, hj⟩
  exact key seg _ hi

/-- One coordinate too few, in any of the points, and construction without given bounds is undefined, with every rule,
every stop condition and every standard library. -/
theorem c147_short_false (tag : SpaceTag α d β) (M : Metric α d) (N : Num α) {space : Nat → Reader α} {n : Nat}
    (ho : ∀ i j, space i j ≠ .oof) {i : Nat} (hi : i < n) {j : Fin d} (hj : space i j = .ub) {o : BuildOpts α d}
    (hb : o.bounds = .fromSpace) (fuel : Nat) : KdTree.makeC tag M N space n o fuel = .ub := by
  unfold KdTree.makeC
  rw [hb]
  rw [show boxFromBoundsC N space n .fromSpace = (.ub : Outcome (Box α d)) from
    boundingC_ub N ho (List.mem_range.2 hi) hj]
  rfl

/-- Points that `point_at` returns by value are gone when the builder reads them: construction from at least one point is
undefined, with given bounds as well. -/
theorem c147_value_false (tag : SpaceTag α d β) (M : Metric α d) (N : Num α) (pts : List (List α)) {n : Nat}
    (hn : 0 < n) (hd : 0 < d) (o : BuildOpts α d) (fuel : Nat) :
    KdTree.makeC tag M N (wrapped .value pts) n o (fuel + 1) = .ub := by
  have hu : ∀ i j, wrapped .value pts i j = .ub := fun _ _ => rfl
  have ho : ∀ i j, wrapped .value pts i j ≠ .oof := fun i j => by rw [hu]; simp
  have h0 : 0 ∈ List.range n := List.mem_range.2 hn
  have hread : ∀ dim : Fin d, readAll (wrapped .value pts) dim (List.range n) = .ub := by
    intro dim
    obtain ⟨m, rfl⟩ : ∃ m, n = m + 1 := ⟨n - 1, by omega⟩
    rw [List.range_succ_eq_map]
    rfl
  have hbox : (boundingC N (wrapped .value pts) (List.range n) : Outcome (Box α d)) = .ub :=
    boundingC_ub N ho h0 (hu 0 (⟨0, hd⟩ : Fin d))
  cases hb : o.bounds with
  | fromSpace => exact c147_short_false tag M N ho hn (hu 0 (⟨0, hd⟩ : Fin d)) hb _
  | given mn mx =>
    unfold KdTree.makeC
    rw [hb, show boxFromBoundsC N (wrapped .value pts) n (.given mn mx)
      = .ok (((Box.inverseMax N).fitPt mn).fitPt mx) from rfl, Outcome.bind_ok]
    generalize ((Box.inverseMax N).fitPt mn).fitPt mx = box
    unfold createNodeC
    split
    · have : leafBoxC (KdTree.cfg tag N (values (wrapped .value pts)) o) (wrapped .value pts) (List.range n) box = .ub := by
        unfold leafBoxC
        split
        · rw [if_pos (by simpa using hn)]; exact hbox
        · exact hbox
      rw [this]; rfl
    · have : splitterC (KdTree.cfg tag N (values (wrapped .value pts)) o) (wrapped .value pts) (List.range n) box = .ub := by
        unfold splitterC
        split
        · unfold splitMedianC
          split
          · rfl
          · unfold nthSplitC; rw [hread]; rfl
        · unfold splitMidpointC
          split
          · rfl
          · rw [hread]; rfl
        · unfold splitSlidingC
          split
          · rfl
          · rw [hread]; rfl
      rw [this]; rfl

/-- References and views stay good: the tree is that of the points. -/
theorem c147_kept (tag : SpaceTag α d β) (M : Metric α d) (N : Num α) (pts : Nat → Pt α d) (n : Nat) {k : PointAt}
    (hk : k ≠ .value) (o : BuildOpts α d) (hS : o.S.Local) (fuel : Nat) :
    (KdTree.makeC tag M N (wrapped k ((List.range n).map fun i => List.ofFn (pts i))) n o fuel).bind
        (fun T => .ok T.data)
      = buildTree (KdTree.cfg tag N pts o) n o.bounds fuel := by
  have hv : Holds (vectorSpace ((List.range n).map fun i => List.ofFn (pts i))) pts n := by
    intro i hi j
    unfold vectorSpace
    rw [rd_of_lt (by simpa using hi), Outcome.bind_ok, List.getElem_map, List.getElem_range, rd_ofFn]
  refine c147_points tag M N ?_ o hS fuel
  cases k with
  | value => exact absurd rfl hk
  | reference => exact hv
  | view => exact hv

/-! ## Examples -/

/-- Three points in memory, one after the other: the tree is made, and as a vector of vectors of which one is too short
it is not. -/
example : ((KdTree.makeC (euclideanTag Int 2) (metricL2Sq Int 2) Ref.intNum (mapSpace [4, 1, 0, 0, 3, 5] 2) 3
      (Ref.optsSliding Int 2) 10).check fun T => T.data.indices == [1, 0, 2]) = true ∧
    KdTree.makeC (euclideanTag Int 2) (metricL2Sq Int 2) Ref.intNum (vectorSpace [[4, 1], [0], [3, 5]]) 3
      (Ref.optsSliding Int 2) 10 = .ub :=
  ⟨by decide +kernel, c147_short_false _ _ _ (by
      intro i j; unfold vectorSpace rd; split <;> simp [Outcome.bind]; split <;> simp)
    (i := 1) (by decide) (j := 1) (by decide +kernel) rfl _⟩

example : Readable 2 (mapSpace [(4 : Int), 1, 0, 0, 3, 5] 2) 3 := by
  intro i hi j
  refine ⟨_, rd_of_lt ?_⟩
  have := j.2
  simp only [List.length_cons, List.length_nil]
  omega

end Pico.Props
