import Verif.Model.Narrow
import Verif.Props.MachineInt
import Verif.Props.Box

/-!
# C143: scalar types narrower than `int`, and unsigned ones

A tree of `std::uint8_t`, `std::uint16_t`, `std::int8_t` or `std::int16_t` coordinates answers exactly if the true
distances fit the scalar type, and not in general.  With `unsigned int` even that is not enough.
-/

set_option linter.unusedSectionVars false

namespace Pico

section Guards
variable {α : Type} [LinearOrder α] [Zero α] [Add α] [Sub α] {d : Nat}

/-- The guard of `Created.guardExact` for an arbitrary test `side` and an arbitrary offset `off`; moreover the offset
of the second child is that of a coordinate of a point. -/
theorem Created.guardSide {C : BuildCfg α d (Branch1 α d)} (hset : C.setBranch = setBranchEuclidean)
    (hN : C.N.low ≤ C.N.big) (hr : C.rule ≠ .midpoint) (hst : StopOk C) (q : Pt α d)
    (side : α → α → α → Bool) (off : α → α → α) (pick : Branch1 α d → Bool × α)
    (hpick : ∀ b, pick b = if side b.leftMax b.rightMin (q b.splitDim) then (true, off b.rightMin (q b.splitDim))
      else (false, off b.leftMax (q b.splitDim)))
    {depth : Int} {o : Nat}
    {seg : List Nat} {box : Box α d} {t : Tree (Branch1 α d)} {seg' : List Nat} {box' : Box α d}
    (h : Created C depth o seg box t seg' box') {n : Nat} (hlt : ∀ i ∈ seg, i < n)
    (hp : ∀ i < n, ∀ j, InRange C.N (C.pts i j)) (term : Fin d → Nat → α)
    (hsgn : ∀ a < n, ∀ b < n, ∀ j, C.pts a j ≤ C.pts b j →
      (side (C.pts a j) (C.pts b j) (q j) = true → q j ≤ C.pts b j) ∧
      (side (C.pts a j) (C.pts b j) (q j) = false → C.pts a j ≤ q j))
    (hmono : ∀ k < n, ∀ i < n, ∀ j, (q j ≤ C.pts k j ∧ C.pts k j ≤ C.pts i j) ∨
      (C.pts k j ≤ q j ∧ C.pts i j ≤ C.pts k j) → off (C.pts k j) (q j) ≤ term j i)
    (pre post : List Nat) (ho : o = pre.length) :
    Guard (fun b : Branch1 α d => b.splitDim) pick (pre ++ (seg' ++ post)) term t ∧
    GuardBy pick (pre ++ (seg' ++ post))
      (fun b _ => ∃ k < n, (pick b).2 = off (C.pts k b.splitDim) (q b.splitDim)) t := by
  induction h generalizing pre post with
  | leaf _ => exact ⟨trivial, trivial⟩
  | @branch depth o seg box sp l r segL segR boxL boxR hl hs hL hR ih1 ih2 =>
    have hmem := splitter_mem hs
    have hltL : ∀ i ∈ sp.seg.take sp.pos, i < n := fun i hi => hlt i (hmem.1 i hi)
    have hltR : ∀ i ∈ sp.seg.drop sp.pos, i < n := fun i hi => hlt i (hmem.2 i hi)
    have hlen : segL.length = sp.pos := by rw [hL.perm.length_eq]; exact splitter_take_length hs
    have bL := hL.built hN (fun h => absurd h hr) (fun i hi => hp i (hltL i hi)) (fun h => absurd h hr)
    have bR := hR.built hN (fun h => absurd h hr) (fun i hi => hp i (hltR i hi)) (fun h => absurd h hr)
    have hel := bL.elems_eq pre (segR ++ post) ho
    have her := bR.elems_eq (pre ++ segL) post (by simp [ho, hlen])
    have g1 := ih1 hltL pre (segR ++ post) ho
    have g2 := ih2 hltR (pre ++ segL) post (by simp [ho, hlen])
    have hpos := split_pos hr hs (two_le_of_not_leaf hst hl)
    have hneL : segL ≠ [] := by
      intro e; rw [e] at hlen; simp at hlen; omega
    have hneR : segR ≠ [] := by
      intro e
      have := hR.perm.length_eq
      rw [splitter_drop_length hs, e] at this
      simp at this
      omega
    have hL' : ∀ i ∈ segL, i < n := fun i hi => hltL i (hL.perm.subset hi)
    have hR' : ∀ i ∈ segR, i < n := fun i hi => hltR i (hR.perm.subset hi)
    obtain ⟨a, ha, ea⟩ := ((hL.corners hr).exists (fun i hi => hp i (hL' i hi)) bL.mem hneL sp.dim).2
    obtain ⟨b, hb, eb⟩ := ((hR.corners hr).exists (fun i hi => hp i (hR' i hi)) bR.mem hneR sp.dim).1
    have hab : C.pts a sp.dim ≤ C.pts b sp.dim :=
      ((splitter_ok hs).1.left_le a (hL.perm.subset ha)).trans
        ((splitter_ok hs).1.right_ge b (hR.perm.subset hb))
    have hsg := hsgn a (hL' a ha) b (hR' b hb) sp.dim hab
    simp only [List.append_assoc] at hel her g1 g2 ⊢
    have hpk : pick (C.setBranch boxL boxR sp.dim) =
        if side (C.pts a sp.dim) (C.pts b sp.dim) (q sp.dim) then (true, off (C.pts b sp.dim) (q sp.dim))
        else (false, off (C.pts a sp.dim) (q sp.dim)) := by
      rw [hset, hpick]
      simp only [setBranchEuclidean, ea, eb]
    have hdim : (C.setBranch boxL boxR sp.dim).splitDim = sp.dim := by rw [hset]; rfl
    refine ⟨⟨?_, g1.1, g2.1⟩, ?_, g1.2, g2.2⟩
    · intro i hi
      rw [hpk] at hi ⊢
      change _ ≤ term (C.setBranch boxL boxR sp.dim).splitDim i
      rw [hdim]
      cases hc : side (C.pts a sp.dim) (C.pts b sp.dim) (q sp.dim)
      · simp only [hc, Bool.false_eq_true, if_false] at hi ⊢
        rw [hel] at hi
        exact hmono a (hL' a ha) i (hL' i hi) sp.dim
          (.inr ⟨hsg.2 hc, by rw [← ea]; exact (bL.mem i hi sp.dim).2⟩)
      · simp only [hc, if_true] at hi ⊢
        rw [her] at hi
        exact hmono b (hR' b hb) i (hR' i hi) sp.dim
          (.inl ⟨hsg.1 hc, by rw [← eb]; exact (bR.mem i hi sp.dim).1⟩)
    · intro i hi
      rw [hpk, hdim]
      cases hc : side (C.pts a sp.dim) (C.pts b sp.dim) (q sp.dim)
      · exact ⟨a, hL' a ha, by simp⟩
      · exact ⟨b, hR' b hb, by simp⟩

end Guards

namespace Narrow
variable {I : Narrow} {J : CInt} {d : Nat}

theorem CInt_exact (J : CInt) {z : ℤ} (h : |z| < 2 ^ 31) : J.norm z = z := by
  rw [abs_lt] at h
  exact J.exact z (by rw [J.lo_eq]; omega) (by rw [J.hi_eq]; omega)

/-- Values of the type, as integers. -/
theorem bounds (x : I.F) : -32768 ≤ x.1 ∧ x.1 ≤ 65535 := by
  have h1 := I.lo_ge
  have h2 := I.hi_le
  have h3 := x.2
  norm_num at h1 h2
  omega

theorem sub_lt (x y : I.F) : |x.1 - y.1| < 98304 := by
  have h1 := bounds x
  have h2 := bounds y
  rw [abs_lt]
  omega

/-- The subtraction and the addition of `node_box_distance - old_offset + new_offset` (kd_tree_search.hpp:94), made
with `int`s and converted once, yield what the model computes with a conversion after each of them. -/
theorem node_distance_once (D old new : I.F) : D - old + new = I.ofInt (D.1 - old.1 + new.1) :=
  Subtype.ext (I.modular _ _)

/-- The side on which the query lies, tested with `int`s. -/
def side (J : CInt) (a b v : I.F) : Bool := decide (J.norm (J.norm (J.norm (a.1 + b.1) - v.1) - v.1) > 0)

theorem side_exact (a b v : I.F) : side J a b v = decide (a.1 + b.1 - v.1 - v.1 > 0) := by
  have h1 := bounds a
  have h2 := bounds b
  have h3 := bounds v
  unfold side
  rw [CInt_exact J (z := a.1 + b.1) (by rw [abs_lt]; omega),
    CInt_exact J (z := a.1 + b.1 - v.1) (by rw [abs_lt]; omega),
    CInt_exact J (z := a.1 + b.1 - v.1 - v.1) (by rw [abs_lt]; omega)]

theorem absInt_exact {z : ℤ} (hz : |z| < 98304) : absInt J z = |z| := by
  unfold absInt
  rw [CInt_exact J (hz.trans (by norm_num)), CInt_exact J (by rw [abs_abs]; exact hz.trans (by norm_num))]

theorem sqInt_exact {z : ℤ} (hz : |z| < 98304) (h2 : z ^ 2 < 2 ^ 31) : sqInt J z = z ^ 2 := by
  unfold sqInt
  rw [CInt_exact J (hz.trans (by norm_num)), ← pow_two, CInt_exact J (by rw [abs_of_nonneg (sq_nonneg z)]; exact h2)]

end Narrow

namespace Props

open Spec MachineInt Narrow

section
variable {I : Narrow} {J : CInt} {d : Nat} {N : Num I.F} {pts : Nat → Pt I.F d} {n : Nat} {o : BuildOpts I.F d}
  {fuel : Nat} {T : KdTree I.F d (Branch1 I.F d)}

theorem exactAt_narrow (f g : ℤ → ℤ) (hf0 : ∀ x, 0 ≤ f x) (hfm : ∀ x y, |x| ≤ |y| → f x ≤ f y)
    (hg : ∀ z, |z| < 98304 → f z ≤ I.hi → g z = f z)
    (h : KdTree.make (promotedTag I J g d) (promotedMetric I g d) N pts n o fuel = .ok T)
    (hR : Representable N pts n o) (hn : 0 < n) (hr : o.rule ≠ .midpoint) (q : Pt I.F d)
    (hlim : ∀ i < n, ∑ j, f ((q j).1 - (pts i j).1) ≤ I.hi) :
    ExactAt T q ∧ ∀ i < n, ((promotedMetric I g d).dist q (pts i)).1 = ∑ j, f ((q j).1 - (pts i j).1) := by
  have hfs : ∀ x, f (-x) = f x := fun x => le_antisymm (hfm _ _ (by rw [abs_neg])) (hfm _ _ (by rw [abs_neg]))
  have hle : ∀ i < n, ∀ j, f ((q j).1 - (pts i j).1) ≤ I.hi := fun i hi j =>
    (Finset.single_le_sum (f := fun j => f ((q j).1 - (pts i j).1)) (fun j _ => hf0 _)
      (Finset.mem_univ j)).trans (hlim i hi)
  have hterm : ∀ i < n, ∀ j, (I.ofInt (g ((q j).1 - (pts i j).1))).1 = f ((q j).1 - (pts i j).1) := by
    intro i hi j
    rw [hg _ (sub_lt _ _) (hle i hi j)]
    exact I.exact _ (I.lo_le.trans (hf0 _)) (hle i hi j)
  have hterm' : ∀ i < n, ∀ j, (I.ofInt (g ((pts i j).1 - (q j).1))).1 = f ((q j).1 - (pts i j).1) := by
    intro i hi j
    have e : f ((pts i j).1 - (q j).1) = f ((q j).1 - (pts i j).1) := by rw [← hfs, neg_sub]
    rw [hg _ (sub_lt _ _) (by rw [e]; exact hle i hi j), e]
    exact I.exact _ (I.lo_le.trans (hf0 _)) (hle i hi j)
  obtain ⟨_, _, _, _, _, hb⟩ := KdTree.make_ok h
  obtain ⟨_, box, hcr⟩ := buildTree_created hb
  obtain ⟨hgd, hco⟩ := hcr.guardSide (n := n) rfl hR.num hr (stopOk_of_created hcr (by simpa using hn))
    q (side J) (fun x v => I.ofInt (g (x.1 - v.1))) ((promotedTag I J g d).pick (promotedMetric I g d) q)
    (by
      intro b
      change pickPromoted I J g q b = _
      unfold pickPromoted side
      simp only [decide_eq_true_eq])
    (fun i hi => List.mem_range.1 hi) hR.points (fun j i => I.ofInt (g ((q j).1 - (pts i j).1)))
    (by
      intro a ha b hb j hab
      have hab' : (pts a j).1 ≤ (pts b j).1 := hab
      rw [side_exact]
      constructor
      · intro hs
        have : (pts a j).1 + (pts b j).1 - (q j).1 - (q j).1 > 0 := of_decide_eq_true hs
        change (q j).1 ≤ (pts b j).1
        omega
      · intro hs
        have : ¬ (pts a j).1 + (pts b j).1 - (q j).1 - (q j).1 > 0 := of_decide_eq_false hs
        change (pts a j).1 ≤ (q j).1
        omega)
    (by
      intro k hk i hi j hc
      change (I.ofInt (g ((pts k j).1 - (q j).1))).1 ≤ (I.ofInt (g ((q j).1 - (pts i j).1))).1
      rw [hterm' k hk j, hterm i hi j]
      apply hfm
      rcases hc with ⟨a1, a2⟩ | ⟨a1, a2⟩
      · have b1 : (q j).1 ≤ (pts k j).1 := a1
        have b2 : (pts k j).1 ≤ (pts i j).1 := a2
        rw [abs_of_nonpos (by linarith), abs_of_nonpos (by linarith)]
        linarith
      · have b1 : (pts k j).1 ≤ (q j).1 := a1
        have b2 : (pts i j).1 ≤ (pts k j).1 := a2
        rw [abs_of_nonneg (by linarith), abs_of_nonneg (by linarith)]
        linarith)
    [] [] rfl
  simp only [List.nil_append, List.append_nil] at hgd hco
  have hv : ∀ i < n, ((promotedMetric I g d).dist q (pts i)).1 =
      ∑ j, (I.ofInt (g ((q j).1 - (pts i j).1))).1 := by
    intro i hi
    exact exactSums.loopSum _ (fun j => AddSubgroup.mem_top _) (fun j => by rw [hterm i hi j]; exact hf0 _)
      (by rw [Finset.sum_congr rfl fun j _ => hterm i hi j]; exact hlim i hi)
  refine ⟨?_, fun i hi => by rw [hv i hi]; exact Finset.sum_congr rfl fun j _ => hterm i hi j⟩
  refine exactAt_sums exactSums h hR hn q (fun j i => I.ofInt (g ((q j).1 - (pts i j).1))) hv
    (fun i hi j => AddSubgroup.mem_top _) (fun i hi j => by rw [hterm i hi j]; exact hf0 _)
    (fun i hi => by rw [Finset.sum_congr rfl fun j _ => hterm i hi j]; exact hlim i hi) hgd (hco.mono ?_)
  rintro b - ⟨k, hk, e⟩
  exact .inr ⟨k, hk, e.trans (Subtype.ext (by
    change (I.ofInt (g ((pts k b.splitDim).1 - (q b.splitDim).1))).1 = _
    rw [hterm' k hk, ← hterm k hk]; rfl))⟩

/-- The searches of a tree answer with the distances `dist`, exactly. -/
def AnswersBy (T : KdTree I.F d (Branch1 I.F d)) (n : Nat) (q : Pt I.F d) (dist : Nat → I.F) : Prop :=
  (∀ nn, IsNN n dist (T.searchNn q nn)) ∧
  (∀ k prior, 0 < k → ∃ out, T.searchKnn q k prior = .ok out ∧ IsKnn n k dist out) ∧
  ∀ sorter r prior sort, IsRadius n dist r (T.searchRadius sorter q r prior sort)

theorem answers_narrow {g : ℤ → ℤ}
    (h : KdTree.make (promotedTag I J g d) (promotedMetric I g d) N pts n o fuel = .ok T) (hn : 0 < n) {q : Pt I.F d}
    (hE : ExactAt T q) (hb : ∀ i < n, (promotedMetric I g d).dist q (pts i) < N.big) :
    AnswersBy T n q fun i => (promotedMetric I g d).dist q (pts i) := by
  refine ⟨?_, ?_, ?_⟩
  · intro nn; exact nn_of_exact h hE hn rfl hb nn
  · intro k prior hk
    obtain ⟨out, h1, h2, _⟩ := knn_of_exact h hE hn rfl hb k hk prior
    exact ⟨out, h1, h2⟩
  · intro sorter r prior sort
    exact (radius_of_exact h hE rfl sorter r prior sort).1

/-- C143 for `metric_l1`: the true distances from the query fit the scalar type. -/
theorem c143_l1 (hN : N.big.1 ≤ I.hi)
    (h : KdTree.make (promotedTag I J (absInt J) d) (promotedMetric I (absInt J) d) N pts n o fuel = .ok T)
    (hR : Representable N pts n o) (hn : 0 < n) (hr : o.rule ≠ .midpoint) (q : Pt I.F d)
    (hbig : ∀ i < n, Spec.l1 (exactPt q) (exactPt (pts i)) < N.big.1) :
    ∃ dist : Nat → I.F, (∀ i < n, (dist i).1 = Spec.l1 (exactPt q) (exactPt (pts i))) ∧ AnswersBy T n q dist := by
  obtain ⟨hE, hv⟩ := exactAt_narrow (fun x => |x|) (absInt J) (fun x => abs_nonneg x) (fun x y h => h)
    (fun z hz _ => absInt_exact hz) h hR hn hr q (fun i hi => ((hbig i hi).trans_le hN).le)
  exact ⟨_, hv, answers_narrow h hn hE fun i hi => by rw [lt_iff, hv i hi]; exact hbig i hi⟩

/-- C143 for `metric_l2_squared`: the true squared distances from the query fit the scalar type. -/
theorem c143_l2 (hN : N.big.1 ≤ I.hi)
    (h : KdTree.make (promotedTag I J (sqInt J) d) (promotedMetric I (sqInt J) d) N pts n o fuel = .ok T)
    (hR : Representable N pts n o) (hn : 0 < n) (hr : o.rule ≠ .midpoint) (q : Pt I.F d)
    (hbig : ∀ i < n, Spec.l2Sq (exactPt q) (exactPt (pts i)) < N.big.1) :
    ∃ dist : Nat → I.F, (∀ i < n, (dist i).1 = Spec.l2Sq (exactPt q) (exactPt (pts i))) ∧ AnswersBy T n q dist := by
  obtain ⟨hE, hv⟩ := exactAt_narrow (fun x => x ^ 2) (sqInt J) (fun x => sq_nonneg x) (fun x y h => sq_le_sq.2 h)
    (fun z hz hf => sqInt_exact hz (by have := I.hi_le; omega)) h hR hn hr q
    (fun i hi => ((hbig i hi).trans_le hN).le)
  exact ⟨_, hv, answers_narrow h hn hE fun i hi => by rw [lt_iff, hv i hi]; exact hbig i hi⟩

/-- `search_box` compares coordinates only: it is exact for all of these types, without any assumption on distances. -/
theorem c143_box {M : Metric I.F d} {g : ℤ → ℤ} (h : KdTree.make (promotedTag I J g d) M N pts n o fuel = .ok T)
    (hb : BoundsContain pts n o.bounds) (mn mx : Pt I.F d) (prior : List Nat) :
    IsSelection n (fun i => InBox (exactPt mn) (exactPt mx) (exactPt (pts i))) (T.searchBox mn mx prior) := by
  obtain ⟨box, hc⟩ := created_of_make h
  rw [searchBox_filter h hb mn mx (boxQuery_euclidean M _ pts) (fun b i h1 h2 => Box.containsBox_mem h1 h2)
    prior]
  exact isSelection_filter hc.perm _ fun i => containsPt_iff_inBox _ _ _

/-- The metrics of one number, with which a caller converts a radius: exact if the result fits the type. -/
theorem c143_scalar (x : I.F) :
    (|x.1| ≤ I.hi → ((promotedMetric I (absInt J) d).one x).1 = |x.1|) ∧
    (x.1 ^ 2 ≤ I.hi → ((promotedMetric I (sqInt J) d).one x).1 = x.1 ^ 2) := by
  have hx : |x.1| < 98304 := by
    have := bounds x
    rw [abs_lt]
    omega
  constructor
  · intro h
    change I.norm (absInt J x.1) = _
    rw [absInt_exact hx]
    exact I.exact _ (I.lo_le.trans (abs_nonneg _)) h
  · intro h
    change I.norm (sqInt J x.1) = _
    rw [sqInt_exact hx (by have := I.hi_le; omega)]
    exact I.exact _ (I.lo_le.trans (sq_nonneg _)) h

example : ((promotedMetric (signedNarrow 8 (by decide) (by decide)) (absInt wrappingInt) 1).one
    ⟨-100, by decide +kernel⟩).1 = 100 := (c143_scalar _).1 (by decide +kernel)

end

/-- `std::uint8_t`. -/
abbrev byte : Narrow := unsignedNarrow 8 (by decide)

/-- `std::int16_t`. -/
abbrev short : Narrow := signedNarrow 16 (by decide) (by decide)

/-- Colours: four points with byte coordinates, two of them equal. -/
def bytes4 : Nat → Pt byte.F 3
  | 0 => ![byte.ofInt 200, byte.ofInt 100, byte.ofInt 255]
  | 1 => ![byte.ofInt 207, byte.ofInt 90, byte.ofInt 250]
  | 2 => ![byte.ofInt 201, byte.ofInt 93, byte.ofInt 249]
  | _ => ![byte.ofInt 201, byte.ofInt 93, byte.ofInt 249]

theorem bytes4_representable : Representable byte.num bytes4 4 (Ref.optsSliding byte.F 3) where
  num := by decide +kernel
  points i hi j := by
    have : ∀ i < 4, ∀ j, byte.num.low ≤ bytes4 i j ∧ bytes4 i j ≤ byte.num.big := by decide +kernel
    exact this i hi j
  bounds := trivial
  mid h := by simp [Ref.optsSliding] at h

/-- Colours near each other: squared distances below 255, coordinates up to 255. -/
example : ∃ T dist, KdTree.make (promotedTag byte wrappingInt (sqInt wrappingInt) 3)
      (promotedMetric byte (sqInt wrappingInt) 3) byte.num bytes4 4 (Ref.optsSliding byte.F 3) 10 = .ok T ∧
      AnswersBy T 4 ![byte.ofInt 205, byte.ofInt 95, byte.ofInt 252] dist ∧ (dist 0).1 = 59 ∧ (dist 2).1 = 29 := by
  obtain ⟨T, h1, -⟩ := Outcome.exists_of_check (x := KdTree.make (promotedTag byte wrappingInt (sqInt wrappingInt) 3)
      (promotedMetric byte (sqInt wrappingInt) 3) byte.num bytes4 4 (Ref.optsSliding byte.F 3) 10)
    (p := fun _ => true) (by decide +kernel)
  obtain ⟨dist, hd, h3⟩ := c143_l2 (le_refl _) h1 bytes4_representable (by decide) (by decide)
    ![byte.ofInt 205, byte.ofInt 95, byte.ofInt 252] (by decide +kernel)
  refine ⟨T, dist, h1, h3, ?_, ?_⟩
  · rw [hd 0 (by decide)]; decide +kernel
  · rw [hd 2 (by decide)]; decide +kernel

/-- Three points with `std::int16_t` coordinates. -/
def shorts3 : Nat → Pt short.F 2
  | 0 => ![short.ofInt (-15000), short.ofInt 9]
  | 1 => ![short.ofInt 15000, short.ofInt (-9)]
  | _ => ![short.ofInt 3, short.ofInt 2999]

theorem shorts3_representable : Representable short.num shorts3 3 (Ref.optsSliding short.F 2) where
  num := by decide +kernel
  points i hi j := by
    have : ∀ i < 3, ∀ j, short.num.low ≤ shorts3 i j ∧ shorts3 i j ≤ short.num.big := by decide +kernel
    exact this i hi j
  bounds := trivial
  mid h := by simp [Ref.optsSliding] at h

/-- The sum of `left_max` and `right_min` and twice the query exceeds `std::int16_t`, but not `int`. -/
example : ∃ T dist, KdTree.make (promotedTag short wrappingInt (absInt wrappingInt) 2)
      (promotedMetric short (absInt wrappingInt) 2) short.num shorts3 3 (Ref.optsSliding short.F 2) 10 = .ok T ∧
      AnswersBy T 3 ![short.ofInt (-16000), short.ofInt 9] dist ∧ (dist 1).1 = 31018 := by
  obtain ⟨T, h1, -⟩ := Outcome.exists_of_check (x := KdTree.make (promotedTag short wrappingInt (absInt wrappingInt) 2)
      (promotedMetric short (absInt wrappingInt) 2) short.num shorts3 3 (Ref.optsSliding short.F 2) 10)
    (p := fun _ => true) (by decide +kernel)
  obtain ⟨dist, hd, h3⟩ := c143_l1 (le_refl _) h1 shorts3_representable (by decide) (by decide)
    ![short.ofInt (-16000), short.ofInt 9] (by decide +kernel)
  refine ⟨T, dist, h1, h3, ?_⟩
  rw [hd 1 (by decide)]; decide +kernel

/-- Two bytes. -/
def bytes2 : Nat → Pt byte.F 1
  | 0 => ![byte.ofInt 16]
  | _ => ![byte.ofInt 1]

/-- It is not enough that the coordinates fit the type: of the bytes 16 and 1, `metric_l2_squared` names 16 as the
nearest neighbour of 0, at distance 0. -/
theorem c143_wraps_false : ∃ T, KdTree.make (promotedTag byte wrappingInt (sqInt wrappingInt) 1)
      (promotedMetric byte (sqInt wrappingInt) 1) byte.num bytes2 2 (Ref.optsSliding byte.F 1) 10 = .ok T ∧
    (T.searchNn ![byte.ofInt 0] ⟨0, 0⟩).index = 0 ∧ (T.searchNn ![byte.ofInt 0] ⟨0, 0⟩).distance = 0 ∧
    Spec.l2Sq (exactPt (I := byte.toMachineInt) ![byte.ofInt 0]) (exactPt (bytes2 1)) = 1 ∧
    Spec.l2Sq (exactPt (I := byte.toMachineInt) ![byte.ofInt 0]) (exactPt (bytes2 0)) = 256 := by
  obtain ⟨T, h1, h2⟩ := Outcome.exists_of_check (x := KdTree.make (promotedTag byte wrappingInt (sqInt wrappingInt) 1)
      (promotedMetric byte (sqInt wrappingInt) 1) byte.num bytes2 2 (Ref.optsSliding byte.F 1) 10)
    (p := fun T => (T.searchNn ![byte.ofInt 0] ⟨0, 0⟩).index = 0 ∧
      (T.searchNn ![byte.ofInt 0] ⟨0, 0⟩).distance = 0) (by decide +kernel)
  obtain ⟨h3, h4⟩ := of_decide_eq_true h2
  exact ⟨T, h1, h3, h4, by decide +kernel, by decide +kernel⟩

/-- `unsigned int`. -/
abbrev uint32 : MachineInt := unsignedInt 32

/-- Eight points with small `unsigned int` coordinates. -/
def uints8 : Nat → Pt uint32.F 2
  | 0 => ![uint32.ofInt 30, uint32.ofInt 30]
  | 1 => ![uint32.ofInt 0, uint32.ofInt 5]
  | 2 => ![uint32.ofInt 1, uint32.ofInt 6]
  | 3 => ![uint32.ofInt 2, uint32.ofInt 7]
  | 4 => ![uint32.ofInt 11, uint32.ofInt 30]
  | 5 => ![uint32.ofInt 12, uint32.ofInt 1]
  | 6 => ![uint32.ofInt 25, uint32.ofInt 2]
  | _ => ![uint32.ofInt 20, uint32.ofInt 12]

/-- `unsigned int` is not promoted, and `left_max + right_min - v - v > 0` holds unless it is zero: the left child
comes first even if the query lies in the right one, and the offset of the right child is that of its nearer wall.
All distances are exact here, and the query is one of the points, but another one is reported. -/
theorem c143_unsigned_false : ∃ T, KdTree.make (euclideanTag uint32.F 2) (metricL2Sq uint32.F 2) uint32.num uints8 8
      (Ref.optsMedian uint32.F 2) 10 = .ok T ∧
    (∀ i < 8, ((metricL2Sq uint32.F 2).dist (uints8 0) (uints8 i)).1 =
      Spec.l2Sq (exactPt (uints8 0)) (exactPt (uints8 i))) ∧
    (T.searchNn (uints8 0) ⟨0, 0⟩).index = 4 ∧ (T.searchNn (uints8 0) ⟨0, 0⟩).distance.1 = 361 ∧
    Spec.l2Sq (exactPt (uints8 0)) (exactPt (uints8 0)) = 0 := by
  obtain ⟨T, h1, h2⟩ := Outcome.exists_of_check (x := KdTree.make (euclideanTag uint32.F 2) (metricL2Sq uint32.F 2)
      uint32.num uints8 8 (Ref.optsMedian uint32.F 2) 10)
    (p := fun T => (T.searchNn (uints8 0) ⟨0, 0⟩).index = 4 ∧
      (T.searchNn (uints8 0) ⟨0, 0⟩).distance.1 = 361) (by decide +kernel)
  obtain ⟨h3, h4⟩ := of_decide_eq_true h2
  exact ⟨T, h1, by decide +kernel, h3, h4, by decide +kernel⟩

/-- Three numbers. -/
def uints3 : Nat → Pt uint32.F 1
  | 0 => ![uint32.ofInt 30]
  | 1 => ![uint32.ofInt 10]
  | _ => ![uint32.ofInt 20]

/-- Neither does `search_radius` with `unsigned int` find the query 30 among 10, 20 and 30: it returns nothing. -/
theorem c143_unsigned_radius_false : ∃ T, KdTree.make (euclideanTag uint32.F 1) (metricL2Sq uint32.F 1) uint32.num
      uints3 3 (Ref.optsMedian uint32.F 1) 10 = .ok T ∧
    (∀ sorter prior, T.searchRadius sorter (uints3 0) (uint32.ofInt 4) prior false = []) ∧
    Spec.l2Sq (exactPt (uints3 0)) (exactPt (uints3 0)) = 0 := by
  obtain ⟨T, h1, h2⟩ := Outcome.exists_of_check (x := KdTree.make (euclideanTag uint32.F 1) (metricL2Sq uint32.F 1)
      uint32.num uints3 3 (Ref.optsMedian uint32.F 1) 10)
    (p := fun T => T.searchNearest (uints3 0) (radiusVisitor (uint32.ofInt 4)) [] = []) (by decide +kernel)
  exact ⟨T, h1, fun _ _ => of_decide_eq_true h2, by decide +kernel⟩

end Props

end Pico
