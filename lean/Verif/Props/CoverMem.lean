import Verif.Proof.CoverMemMake
import Verif.Props.Cover
import Verif.Props.Memory

/-!
# C130: the nodes of a cover tree in memory
-/

namespace Pico.Props

open Spec CoverMem

section
variable {α L : Type} [LT α] [LE α] [DecidableLT α] [DecidableLE α] [Add α] {M : Malloc} {V : StdVector}
  {B : Leveling α L} {P : StdPartition} {dist : Nat → Nat → α} {max₀ : α}

/-- C130 (construction): if the construction of C48–C50, on trees that are values, finishes with the tree `t`,
then the construction that follows pointers has no undefined behaviour and leaves `t` in memory, with the same
recorded distances. The calls nest at most as deep as there are points. The tree occupies one new block, its
nodes stand in it depth first, without gaps and from the start, the buffer has as many nodes as there are
points and never grew. The block of the first buffer is freed, and whatever was allocated before is unchanged. -/
theorem c130_build {w : World α L} {depth fuel F : Nat} {indices : List Nat} {t : CNode L α} (hF : fuel ≤ F)
    (hdepth : indices.length ≤ depth) (h : Cover.build B (P.part _) dist fuel indices = .ok t) :
    ∃ b w', CoverMem.build M V B P dist max₀ depth F indices w = .ok ((b.block, 0), b, w') ∧
      b.size = indices.length ∧ indices.length ≤ b.cap ∧
      Stored (· = ·) w'.cell t (b.block, 0) ((List.range indices.length).map fun k => (b.block, k)) ∧
      b.block ∉ w.live ∧ w'.live = b.block :: w.live ∧ ∀ x : Ptr, x.1 ∈ w.live → w'.cell x = w.cell x := by
  obtain ⟨b, w', h1, h2, h3, h4, h5, h6, h7⟩ := build_holds (M := M) (V := V) (max₀ := max₀) (w := w) hF hdepth h
  refine ⟨b, w', h1, h2, h3, ?_, h5, h6, h7⟩
  rw [List.range_eq_range']
  exact h4

/-- C130 (other trees): the trees that exist already are not changed by the construction of another one. -/
theorem c130_others {w w' : World α L} {depth fuel F : Nat} {indices : List Nat} {t u : CNode L α} (hF : fuel ≤ F)
    (hdepth : indices.length ≤ depth) (h : Cover.build B (P.part _) dist fuel indices = .ok t)
    {r : Ptr} {b : Buffer} (hb : CoverMem.build M V B P dist max₀ depth F indices w = .ok (r, b, w'))
    {p : Ptr} {f : List Ptr} (hu : Stored (· = ·) w.cell u p f) (hf : ∀ x ∈ f, x.1 ∈ w.live) :
    Stored (· = ·) w'.cell u p f ∧ (∀ x ∈ f, x.1 ∈ w'.live) ∧ ∀ x ∈ f, x.1 ≠ b.block := by
  obtain ⟨b', w'', h1, -, -, -, h5, h6, h7⟩ := build_holds (M := M) (V := V) (max₀ := max₀) (w := w) hF hdepth h
  rw [hb] at h1
  cases h1
  exact ⟨Stored.congr hu fun x hx => h7 x (hf x hx), fun x hx => by rw [h6]; exact List.mem_cons_of_mem _ (hf x hx),
    fun x hx e => h5 (e ▸ hf x hx)⟩

omit [LT α] [LE α] [DecidableLT α] [DecidableLE α] [Add α] in
/-- C130 (destruction): the destructor of a tree frees its block and changes no other tree. -/
theorem c130_destroy {w : World α L} {o : CoverMem.Object} {b : Buffer} (ho : o.buffer = some b) :
    b.block ∉ (o.destroy w).live ∧ (∀ c ∈ w.live, c ≠ b.block → c ∈ (o.destroy w).live) ∧
      (∀ x : Ptr, x.1 = b.block → (o.destroy w).cell x = none) ∧
      ∀ (u : CNode L α) (p : Ptr) (f : List Ptr), Stored (· = ·) w.cell u p f → (∀ x ∈ f, x.1 ≠ b.block) →
        Stored (· = ·) (o.destroy w).cell u p f := by
  simp only [CoverMem.Object.destroy, ho, Buffer.destroy]
  refine ⟨by simp, fun c hc hne => by simp [hc, hne], fun x hx => by simp [hx], fun u p f hu hf =>
    Stored.congr hu fun x hx => by simp [hf x hx]⟩

omit [LT α] [LE α] [DecidableLT α] [DecidableLE α] [Add α] in
/-- C130 (move): the new object owns the block and has the same root; the destructor of the old object does
nothing, so the tree stays as it is. -/
theorem c130_move (o : CoverMem.Object) (w : World α L) : o.move.1 = o ∧ o.move.2.destroy w = w := ⟨rfl, rfl⟩

end

section
variable {α L σ : Type} [LinearOrder α] [Sub α]

/-- C130 (search): the search that follows pointers from a root that holds the tree `t` has no undefined
behaviour beyond that of the search on `t`, and gives the same result, for every visitor. -/
theorem c130_search (S : StdSorting) (V : Visitor α σ) (dq : Nat → α) {m : Mem α L} {t : CNode L α} {p : Ptr}
    {f : List Ptr} (h : Stored (· = ·) m t p f) (fuel : Nat) (s : σ) :
    CoverMem.searchNearest S V dq m fuel p s = Cover.searchNearest (S.sorter _) V dq fuel t s :=
  searchNearest_eq S V dq m fuel t p f s h

end

section
variable {K : Type} [Field K] [LinearOrder K] [IsStrictOrderedRing K] {d : Nat} {L : Type}
variable (B : Leveling K L) (P : StdPartition) (Mt : Metric K d) (N : Num K) (pts : Nat → Pt K d)
variable (n : Nat) (hn : 0 < n) (indices : List Nat) (hi : indices.Perm (List.range n)) (fuel F depth : Nat)
variable (hF : fuel ≤ F) (hdepth : n ≤ depth) {t : CNode L K}
variable (ht : Cover.build B (P.part _) (fun i j => Mt.dist (pts i) (pts j)) fuel indices = .ok t)
variable (S : StdSorting) (fuel' : Nat) (hf : n ≤ fuel') (q : Pt K d)
variable (htri : ∀ m < n, ∀ p < n, Mt.dist q (pts m) ≤ Mt.dist q (pts p) + Mt.dist (pts m) (pts p))
variable (M : Malloc) (V : StdVector) (max₀ : K) (w : World K L)
include hn hi hF hdepth ht hf htri

/-- C130 (nearest neighbor): the tree is built in memory, moved, the old object is destroyed, and the search of
the new object follows its pointers: it finishes and returns a nearest neighbor. -/
theorem c130_nn (hbig : ∀ i < n, Mt.dist q (pts i) < N.big) (nn : Neighbor K) :
    ∃ r b w' out, CoverMem.build M V B P (fun i j => Mt.dist (pts i) (pts j)) max₀ depth F indices w =
        .ok (r, b, w') ∧
      CoverMem.searchNearest S nnVisitor (fun i => Mt.dist q (pts i))
        ((CoverMem.Object.mk (some b) r).move.2.destroy w').cell fuel' (CoverMem.Object.mk (some b) r).move.1.root
        (nnInit N nn) = .ok out ∧
      IsNN n (fun i => Mt.dist q (pts i)) out := by
  have hlen : indices.length = n := by rw [hi.length_eq, List.length_range]
  obtain ⟨b, w', h1, -, -, h4, -⟩ := build_holds (M := M) (V := V) (max₀ := max₀) (w := w) hF (hlen.le.trans hdepth) ht
  obtain ⟨out, h5, h6⟩ := c48_nn B (P.part _) Mt N pts n hn indices hi fuel (T := ⟨Mt, N, pts, n, t⟩) (by
    rw [CoverTree.make, ht]; rfl) (S.sorter _) fuel' hf q htri hbig nn
  exact ⟨_, b, w', out, h1, (searchNearest_eq S _ _ _ fuel' t _ _ _ h4).trans h5, h6⟩

/-- C130 (radius): the same for the points within a radius, sorted if that is asked for. -/
theorem c130_radius (r : K) (l : List (Neighbor K)) (sort : Bool) :
    ∃ p b w' out, CoverMem.build M V B P (fun i j => Mt.dist (pts i) (pts j)) max₀ depth F indices w =
        .ok (p, b, w') ∧
      ((CoverMem.searchNearest S (radiusVisitor r) (fun i => Mt.dist q (pts i)) w'.cell fuel' p (radiusInit l)).bind
        fun out => .ok (if sort then (S.sorter _).sort Neighbor.lt out else out)) = .ok out ∧
      IsRadius n (fun i => Mt.dist q (pts i)) r out ∧
      (sort = true → out.Pairwise fun a b => a.distance ≤ b.distance) := by
  have hlen : indices.length = n := by rw [hi.length_eq, List.length_range]
  obtain ⟨b, w', h1, -, -, h4, -⟩ := build_holds (M := M) (V := V) (max₀ := max₀) (w := w) hF (hlen.le.trans hdepth) ht
  obtain ⟨out, h5, h6⟩ := c48_radius B (P.part _) Mt ⟨0, 0, id, id⟩ pts n hn indices hi fuel
    (T := ⟨Mt, ⟨0, 0, id, id⟩, pts, n, t⟩) (by rw [CoverTree.make, ht]; rfl) (S.sorter _) fuel' hf q htri
    (S.sorter _) r l sort
  exact ⟨_, b, w', out, h1, by rw [searchNearest_eq S _ _ _ fuel' t _ _ _ h4]; exact h5, h6⟩

end

section
variable {α L : Type} {M : Malloc} {V : StdVector}

/-- The room that `static_buffer` reserves is needed: as soon as a full buffer allocates a node, its block is freed and
every pointer to its nodes is dangling, also those inside of nodes; other blocks stay. -/
theorem c130_full_false (b : Buffer) (c : Cell α L) (w : World α L) (h : b.cap ≤ b.size) (hb : b.block ∈ w.live) :
    (∀ k, CoverMem.read (b.allocate M V c w).2.2.cell (b.block, k) = .ub) ∧
    b.block ∉ (b.allocate M V c w).2.2.live ∧
    ∀ x ∈ w.live, x ≠ b.block → x ∈ (b.allocate M V c w).2.2.live := by
  have hne : b.block ≠ M.pick w.time w.live := fun e => M.fresh w.time w.live (e ▸ hb)
  simp only [Buffer.allocate, if_neg (Nat.not_lt.2 h), Buffer.regrow]
  refine ⟨fun k => ?_, ?_, ?_⟩
  · have : ((b.block, k) : Ptr) ≠ (M.pick w.time w.live, b.size) := fun e => hne (congrArg Prod.fst e)
    simp only [CoverMem.read, Function.update_of_ne this, if_neg hne, if_true]
  · simp [hne]
  · intro x hx hxb
    simp [hx, hxb]

/-- The loops over children leave their vectors alone, and have to: giving a node another child inside of a loop over
its children is undefined. -/
theorem c130_loop_false (B : Leveling α L) (p child c : Ptr) (rest : List Ptr) (m : CoverMem.Mem α L) (d e : Cell α L)
    (hp : m p = some d) (hc : m child = some e) (hne : child ≠ p) :
    CoverMem.forEach id p d.children (fun m _ => CoverMem.pushChild B p child m) (c :: rest) m = .ub := by
  simp [CoverMem.forEach, CoverMem.pushChild, CoverMem.read, CoverMem.write, Outcome.bind, hp, hc,
    Function.update_of_ne hne.symm, Function.update_of_ne hne]

end

section
variable {α L σ : Type} [LT α] [DecidableLT α] [Sub α]

/-- The source of a move keeps the pointer to the root. It answers like the new object while that exists; after
that every search of it is undefined. -/
theorem c130_source_false (S : StdSorting) (V : Visitor α σ) (dq : Nat → α) (b : Buffer) (k : Nat) (w : World α L)
    (fuel : Nat) (s : σ) :
    let o : CoverMem.Object := ⟨some b, (b.block, k)⟩
    o.move.2.root = o.move.1.root ∧
      CoverMem.searchNearest S V dq (o.move.1.destroy w).cell (fuel + 1) o.move.2.root s = .ub := by
  refine ⟨rfl, ?_⟩
  rw [CoverMem.searchNearest]
  simp [CoverMem.Object.move, CoverMem.Object.destroy, Buffer.destroy, CoverMem.read]

end

/-! ### Examples -/

/-- A `std::partition` that keeps the order, for all types. -/
def stablePartition : StdPartition where
  part := stablePart
  front_map f p l := by simp [stablePart, List.filter_map, Function.comp_def]
  back_map f p l := by simp [stablePart, List.filter_map, Function.comp_def]

/-- Insertion sort, for all types. -/
def insertionSorting : StdSorting where
  sorter := Ref.sorter
  sort_map {τ υ} f lt l := by
    have key : ∀ (a : τ) (m : List τ), (List.orderedInsert (Ref.leOf lt) (f a) (m.map f)) =
        (m.orderedInsert (Ref.leOf fun a b => lt (f a) (f b)) a).map f := by
      intro a m
      induction m with
      | nil => rfl
      | cons b m ih =>
        simp only [List.map_cons, List.orderedInsert]
        by_cases h : Ref.leOf lt (f a) (f b)
        · rw [if_pos h, if_pos (show Ref.leOf (fun a b => lt (f a) (f b)) a b from h)]; rfl
        · rw [if_neg h, if_neg (show ¬ Ref.leOf (fun a b => lt (f a) (f b)) a b from h), ih]; rfl
    induction l with
    | nil => rfl
    | cons a l ih =>
      simp only [Ref.sorter, Ref.isort, List.map_cons, List.insertionSort] at ih ⊢
      rw [List.foldr_cons, ih, key]
      rfl

/-- A vector that reserves what is asked for and doubles. -/
def doublingVector : StdVector where
  reserve n := n
  grow n := 2 * n + 1
  le_reserve n := le_rfl
  lt_grow n := by omega

/-- The distances of points on a line. -/
def lineDist130 (l : List ℚ) : Nat → Nat → ℚ := fun i j => (metricL1 ℚ 1).dist (onLine l i) (onLine l j)

/-- The cover tree of points on a line, in memory. -/
def lineBuild (l : List ℚ) (w : World ℚ (WithBot ℤ)) : Outcome (Ptr × Buffer × World ℚ (WithBot ℤ)) :=
  CoverMem.build bump doublingVector base2 stablePartition (lineDist130 l) (-1) l.length 60 (List.range l.length) w

/-- The first nodes of a block: index, recorded distance and the positions of the children. -/
def nodes130 (w : World ℚ (WithBot ℤ)) (b n : Nat) : List (Option (Nat × ℚ × List Nat)) :=
  (List.range n).map fun k => (w.cell (b, k)).map fun c => (c.index, c.maxDistance, c.children.map (·.2))

/-- The hypotheses of C130 can be met: the tree of eight points with a rebalanced node is built in memory beside
another tree; its nodes are the first eight of the block, depth first, and the search finds point 3 for the query 10. -/
example : ∃ r b w, lineBuild [0, 5, 8, 11, 2, 7, 16, 3] ⟨fun _ => none, [4], 0⟩ = .ok (r, b, w) ∧
    r = (b.block, 0) ∧ b.size = 8 ∧ w.live = [b.block, 4] ∧
    nodes130 w b.block 9 =
    [some (3, 11, [1]), some (2, 8, [2, 7]), some (0, 7, [3]), some (1, 3, [4, 6]), some (4, 1, [5]),
      some (7, 0, []), some (5, 0, []), some (6, 0, []), none] ∧
    ∃ s, CoverMem.searchNearest insertionSorting nnVisitor (fun i => (metricL1 ℚ 1).dist (fun _ => 10)
      (onLine [0, 5, 8, 11, 2, 7, 16, 3] i)) w.cell 8 r (nnInit Ref.ratNum ⟨0, 0⟩) = .ok s ∧ s = ⟨3, 1⟩ := by
  have h : (lineBuild [0, 5, 8, 11, 2, 7, 16, 3] ⟨fun _ => none, [4], 0⟩).check (fun x =>
      decide (x.1 = (x.2.1.block, 0) ∧ x.2.1.size = 8 ∧ x.2.2.live = [x.2.1.block, 4] ∧
        nodes130 x.2.2 x.2.1.block 9 =
        [some (3, 11, [1]), some (2, 8, [2, 7]), some (0, 7, [3]), some (1, 3, [4, 6]), some (4, 1, [5]),
      some (7, 0, []), some (5, 0, []), some (6, 0, []), none]) &&
      (CoverMem.searchNearest insertionSorting nnVisitor (fun i => (metricL1 ℚ 1).dist (fun _ => 10)
        (onLine [0, 5, 8, 11, 2, 7, 16, 3] i)) x.2.2.cell 8 x.1 (nnInit Ref.ratNum ⟨0, 0⟩)).check
          fun s => decide (s = ⟨3, 1⟩)) = true := by
    decide +kernel
  obtain ⟨⟨r, b, w⟩, h1, h2⟩ := Outcome.exists_of_check h
  rw [Bool.and_eq_true] at h2
  obtain ⟨s, h3, h4⟩ := Outcome.exists_of_check h2.2
  obtain ⟨k1, k2, k3, k4⟩ := of_decide_eq_true h2.1
  exact ⟨r, b, w, h1, k1, k2, k3, k4, s, h3, of_decide_eq_true h4⟩

/-- The construction on values that C130 refers to finishes for these points. -/
example : ∃ t, Cover.build base2 (stablePartition.part _) (lineDist130 [0, 5, 8, 11, 2, 7, 16, 3]) 60 (List.range 8) =
    .ok t := by
  have h : (Cover.build base2 (stablePartition.part _) (lineDist130 [0, 5, 8, 11, 2, 7, 16, 3]) 60
    (List.range 8)).check (fun _ => true) = true := by decide +kernel
  obtain ⟨t, h, -⟩ := Outcome.exists_of_check h
  exact ⟨t, h⟩

end Pico.Props
