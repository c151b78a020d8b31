import Verif.Props.Infinity

/-!
# How far off the searches of C12 and C13 may be

With `metric_lpinf` the nearest neighbor reported may be `d` times as far away as the nearest one (`c12_nn_partial`). Here
are, for every dimension and every factor below it, points for which it is. With `metric_lninf` (C13) there is no factor.
-/

namespace Pico.Props
open Spec

variable {K : Type} [Field K] [LinearOrder K] [IsStrictOrderedRing K] {d : Nat}

/-- Point `d` is `(1, …, 1)`. Point `k` before it is zero in coordinate `k`, beyond 1/2 in those before, and has one
coordinate `c`. -/
def tightPts (d : Nat) (c : K) (k : Nat) : Pt K d := fun j =>
  if d ≤ k then 1
  else if k = 0 then (if (j : Nat) = 1 then c else 0)
  else if (j : Nat) = 0 then c
  else if (j : Nat) < k then 1 else 0

/-- Half the length of a side of the start bounds. -/
def tightHalf (d : Nat) (j : Fin d) : K := 2 * (d : K) - ((j : Nat) : K)

/-- Sliding midpoint rule, one point per leaf, bounds around 1/2. -/
def tightOpts (S : Std) (d : Nat) : BuildOpts K d :=
  ⟨S, .sliding, .maxLeafSize 1, .given (fun j => 1 / 2 - tightHalf d j) (fun j => 1 / 2 + tightHalf d j), 32⟩

omit [LinearOrder K] [IsStrictOrderedRing K] in
theorem tight_self (c : K) {k : Nat} (hk : k < d) : tightPts d c k ⟨k, hk⟩ = 0 := by
  unfold tightPts
  rw [if_neg (by omega)]
  by_cases h : k = 0
  · subst h; simp
  · rw [if_neg h]; simp [h]

omit [IsStrictOrderedRing K] in
theorem tight_other {c : K} (hc : 1 ≤ c) {i k : Nat} (hi : i < d) (hk : i < k) : 1 ≤ tightPts d c k ⟨i, hi⟩ := by
  unfold tightPts
  by_cases h : d ≤ k
  · rw [if_pos h]
  · rw [if_neg h, if_neg (by omega)]
    dsimp only
    split_ifs <;> first | exact hc | exact le_rfl

omit [LinearOrder K] [IsStrictOrderedRing K] in
theorem tight_last (c : K) (j : Fin d) : tightPts d c d j = 1 := if_pos le_rfl

theorem tight_le {c : K} (hc : 1 ≤ c) (k : Nat) (j : Fin d) : |tightPts d c k j| ≤ c := by
  have h0 : |(0 : K)| ≤ c := by simpa using zero_le_one.trans hc
  have h1 : |(1 : K)| ≤ c := by simpa using hc
  have hc' : |c| ≤ c := (abs_of_nonneg (zero_le_one.trans hc)).le
  unfold tightPts
  split_ifs <;> assumption

theorem tight_dist {c : K} (hc : 1 ≤ c) (hd : 2 ≤ d) {k : Nat} (hk : k < d) :
    (metricLPInf K d).dist (fun _ => 0) (tightPts d c k) = c := by
  obtain ⟨h1, j, h2⟩ := c12_distance (by omega : 0 < d) (fun _ => (0 : K)) (tightPts d c k)
  refine le_antisymm ?_ ?_
  · rw [← h2]; simpa using tight_le hc k j
  · have hc' : |c| = c := abs_of_nonneg (zero_le_one.trans hc)
    by_cases hk0 : k = 0
    · have := h1 ⟨1, by omega⟩
      simpa [tightPts, hk0, hc', show ¬ d ≤ 0 by omega, abs_of_nonneg (zero_le_one.trans hc)] using this
    · have := h1 ⟨0, by omega⟩
      simpa [tightPts, hk0, hc', show ¬ d ≤ k by omega] using this

theorem tight_dist_last {c : K} (hd : 0 < d) : (metricLPInf K d).dist (fun _ => 0) (tightPts d c d) = 1 := by
  obtain ⟨h1, j, h2⟩ := c12_distance hd (fun _ => (0 : K)) (tightPts d c d)
  rw [← h2, tight_last]
  simp

/-- The box at level `i`: the first `i` sides are cut at 1/2. -/
def TightBox (i : Nat) (b : Box K d) : Prop :=
  ∀ j : Fin d, b.max j = 1 / 2 + tightHalf d j ∧ b.min j = if (j : Nat) < i then 1 / 2 else 1 / 2 - tightHalf d j

theorem tightHalf_le (j : Fin d) : (d : K) + 1 ≤ tightHalf d j ∧ tightHalf d j ≤ 2 * (d : K) := by
  have h1 : ((j : Nat) : K) + 1 ≤ d := by exact_mod_cast j.2
  have h2 : (0 : K) ≤ ((j : Nat) : K) := Nat.cast_nonneg _
  unfold tightHalf
  constructor <;> linarith

variable {N : Num K} {c : K}

theorem tight_maxSide (hlow : N.low < 0) {i : Nat} (hi : i < d) {b : Box K d} (hb : TightBox i b) :
    b.maxSide N = (some ⟨i, hi⟩, 2 * tightHalf d ⟨i, hi⟩) := by
  have hside : b.max ⟨i, hi⟩ - b.min ⟨i, hi⟩ = 2 * tightHalf d ⟨i, hi⟩ := by
    rw [(hb _).1, (hb _).2, if_neg (by simp)]; ring
  have hpos := (tightHalf_le (K := K) (⟨i, hi⟩ : Fin d)).1
  have hd0 : (0 : K) ≤ (d : K) := Nat.cast_nonneg _
  rcases h : b.maxSide N with ⟨_ | dim, delta⟩
  · have := maxSide_none (by rw [h] : (b.maxSide N).1 = none) ⟨i, hi⟩
    linarith
  · obtain ⟨h1, _, _, h4⟩ := maxSide_some h
    have h5 := h4 ⟨i, hi⟩
    rw [hside, h1] at h5
    have hdim : dim = ⟨i, hi⟩ := by
      rw [(hb dim).1, (hb dim).2] at h5
      have := (tightHalf_le (K := K) dim).2
      split_ifs at h5 with hlt
      · linarith
      · unfold tightHalf at h5
        have h6 : ((dim : Nat) : K) ≤ (i : K) := by
          have : (2 : K) * (i : K) ≥ 2 * ((dim : Nat) : K) := by
            simp only at h5; linarith
          linarith
        have h7 : (dim : Nat) ≤ i := by exact_mod_cast h6
        exact Fin.ext (by simp only; omega)
    subst hdim
    rw [h1, hside]

/-- The configuration of the builder. -/
abbrev tightCfg (S : Std) (N : Num K) (d : Nat) (c : K) : BuildCfg K d (Branch1 K d) :=
  KdTree.cfg (euclideanTag K d) N (tightPts d c) (tightOpts S d)

theorem tight_splitter {S : Std} (hc : 1 ≤ c) (hN : ∀ x, N.divTwo x = x / 2) (hlow : N.low < 0) {i m : Nat}
    (hm : i + (m + 1) = d) {seg : List Nat} (hs : seg.Perm (List.range' i (m + 2))) {b : Box K d} (hb : TightBox i b) :
    ∃ rest, rest.Perm (List.range' (i + 1) (m + 1)) ∧
      splitter (tightCfg S N d c) seg b = .ok ⟨i :: rest, 1, ⟨i, by omega⟩, 1 / 2⟩ := by
  have hi : i < d := by omega
  have hval : N.divTwo (2 * tightHalf d ⟨i, hi⟩) + b.min ⟨i, hi⟩ = 1 / 2 := by
    rw [hN, (hb _).2, if_neg (by simp)]; ring
  rcases hp : S.partition (coordBelow (tightPts d c) ⟨i, hi⟩ (1 / 2)) seg with ⟨l, k⟩
  have h1 := S.partition_perm (coordBelow (tightPts d c) ⟨i, hi⟩ (1 / 2)) seg
  have h2 := S.partition_left (coordBelow (tightPts d c) ⟨i, hi⟩ (1 / 2)) seg
  have h3 := S.partition_right (coordBelow (tightPts d c) ⟨i, hi⟩ (1 / 2)) seg
  have h4 := S.partition_le (coordBelow (tightPts d c) ⟨i, hi⟩ (1 / 2)) seg
  rw [hp] at h1 h2 h3 h4
  simp only at h1 h2 h3 h4
  have hl := h1.trans hs
  have hbelow : ∀ x ∈ l, coordBelow (tightPts d c) ⟨i, hi⟩ (1 / 2) x = true ↔ x = i := by
    intro x hx
    have hx' := List.mem_range'_1.1 (hl.mem_iff.1 hx)
    simp only [coordBelow, decide_eq_true_eq]
    constructor
    · intro h
      by_contra hne
      have := tight_other hc hi (k := x) (by omega)
      have h12 : (1 / 2 : K) < 1 := by norm_num
      exact absurd (h.trans h12) (not_lt.2 this)
    · rintro rfl
      rw [tight_self]; norm_num
  have hnd : l.Nodup := hl.nodup_iff.2 List.nodup_range'
  have hil : i ∈ l := hl.mem_iff.2 (List.mem_range'_1.2 ⟨le_rfl, by omega⟩)
  have hleft : ∀ x ∈ l.take k, x = i := fun x hx => (hbelow x (List.mem_of_mem_take hx)).1 (h2 x hx)
  have hnd' := hnd
  rw [← List.take_append_drop k l] at hil hnd'
  have hin : i ∈ l.take k := by
    rcases List.mem_append.1 hil with h | h
    · exact h
    · have := h3 i h
      rw [(hbelow i (List.mem_of_mem_drop h)).2 rfl] at this
      simp at this
  have htake : l.take k = [i] := by
    have hn := (List.nodup_append.1 hnd').1
    rcases ht : l.take k with _ | ⟨a, _ | ⟨a', t⟩⟩
    · rw [ht] at hin; simp at hin
    · rw [ht] at hleft; rw [hleft a (by simp)]
    · rw [ht] at hleft hn
      have e1 := hleft a (by simp)
      have e2 := hleft a' (by simp)
      simp [e1, e2] at hn
  have hlen : l.length = m + 2 := by rw [hl.length_eq, List.length_range']
  have hk : k = 1 := by
    have := congrArg List.length htake
    simp only [List.length_take, List.length_cons, List.length_nil] at this
    omega
  subst hk
  obtain ⟨rest, rfl⟩ : ∃ rest, l = i :: rest := by
    rcases l with _ | ⟨a, t⟩
    · simp at hlen
    · simp at htake; exact ⟨t, by rw [htake]⟩
  refine ⟨rest, ?_, ?_⟩
  · rw [List.range'_succ] at hl
    exact (List.perm_cons i).1 hl
  · show splitSliding S N (tightPts d c) seg b = _
    unfold splitSliding
    rw [tight_maxSide hlow hi hb]
    simp only [hval, hp]
    rw [if_neg (by rw [hlen]; omega), if_neg (by omega)]

theorem tight_leafBox {S : Std} (hc : 1 ≤ c) (hbig : c < N.big) (hlow : N.low < -c) (k : Nat) (b : Box K d) (j : Fin d) :
    (leafBox (tightCfg S N d c) [k] b).min j = tightPts d c k j ∧
      (leafBox (tightCfg S N d c) [k] b).max j = tightPts d c k j := by
  have h := abs_le.1 (tight_le hc k j)
  constructor
  · show (if tightPts d c k j < N.big then tightPts d c k j else N.big) = _
    rw [if_pos (h.2.trans_lt hbig)]
  · show (if tightPts d c k j > N.low then tightPts d c k j else N.low) = _
    rw [if_pos (hlow.trans_le h.1)]

/-- The search of the tree for the nearest neighbor of the origin. -/
abbrev tightSearch (d : Nat) (c : K) : Tree (Branch1 K d) → K → Pt K d × Neighbor K → Pt K d × Neighbor K :=
  searchNearest (fun b => b.splitDim) (pickEuclidean (metricLPInf K d) fun _ => 0) nnVisitor
    (fun i => (metricLPInf K d).dist (fun _ => 0) (tightPts d c i)) (List.range (d + 1))

/-- The search within radius `c` of the origin. -/
abbrev tightRadius (d : Nat) (c : K) : Tree (Branch1 K d) → K → Pt K d × List (Neighbor K) → Pt K d × List (Neighbor K) :=
  searchNearest (fun b => b.splitDim) (pickEuclidean (metricLPInf K d) fun _ => 0) (radiusVisitor c)
    (fun i => (metricLPInf K d).dist (fun _ => 0) (tightPts d c i)) (List.range (d + 1))

theorem tight_slice {i : Nat} (hi : i ≤ d) : slice (List.range (d + 1)) i (i + 1) = [i] := by
  unfold slice
  rw [List.drop_eq_getElem_cons (by simpa using by omega)]
  simp

/-- The subtree at level `i` and the search in it: it leaves what was found as it is, except that point 0 replaces a
farther one. The search within radius `c` finds nothing. -/
theorem tight_created {S : Std} (hc : 1 ≤ c) (hcd : c < d) (hN : ∀ x, N.divTwo x = x / 2) (hbig : c < N.big)
    (hlow : N.low < -c) (m : Nat) : ∀ (i : Nat) (depth : Int) (seg : List Nat) (b : Box K d), i + m = d →
    seg.Perm (List.range' i (m + 1)) → TightBox i b →
    ∃ t B, Created (tightCfg S N d c) depth i seg b t (List.range' i (m + 1)) B ∧
      (∀ j : Fin d, (j : Nat) < i → B.min j = 1) ∧
      ((i : K) ≤ c → ∀ (offs : Pt K d) (s : Neighbor K), (∀ j : Fin d, i ≤ j → offs j = 0) →
        (s = ⟨0, c⟩ ∨ i = 0 ∧ c < s.distance) → tightSearch d c t (i : K) (offs, s) = (offs, ⟨0, c⟩)) ∧
      ((i : K) ≤ c → ∀ (offs : Pt K d) (s : List (Neighbor K)), (∀ j : Fin d, i ≤ j → offs j = 0) →
        tightRadius d c t (i : K) (offs, s) = (offs, s)) := by
  have hd : 2 ≤ d := by
    have : (1 : K) < (d : K) := hc.trans_lt hcd
    exact_mod_cast this
  have hlow0 : N.low < 0 := by linarith
  have hcast : castIndex 32 1 = 1 := by decide
  induction m with
  | zero =>
    intro i depth seg b him hs hb
    obtain rfl : i = d := by omega
    have hseg : seg = [i] := by
      have := hs
      simp only [List.range'_one, zero_add] at this
      exact List.perm_singleton.1 this
    subst hseg
    refine ⟨_, _, Created.leaf ?_, ?_, ?_, ?_⟩
    · simp [isLeaf, KdTree.cfg, tightOpts, hcast]
    · intro j _
      rw [(tight_leafBox hc hbig hlow i b j).1, tight_last]
    · intro h; exact absurd h (not_le.2 hcd)
    · intro h; exact absurd h (not_le.2 hcd)
  | succ m ih =>
    intro i depth seg b him hs hb
    have hi : i < d := by omega
    obtain ⟨rest, hr, hsp⟩ := tight_splitter (S := S) hc hN hlow0 him hs hb
    have hb' : TightBox (i + 1) (b.setMin ⟨i, hi⟩ (1 / 2)) := by
      intro j
      refine ⟨(hb j).1, ?_⟩
      show Function.update b.min ⟨i, hi⟩ (1 / 2) j = _
      by_cases hj : j = ⟨i, hi⟩
      · subst hj; simp
      · have hne : (j : Nat) ≠ i := fun h => hj (Fin.ext h)
        rw [Function.update_of_ne hj, (hb j).2]
        by_cases hlt : (j : Nat) < i
        · rw [if_pos hlt, if_pos (by omega)]
        · rw [if_neg hlt, if_neg (by omega)]
    obtain ⟨t, B, hcr, hmin, hse, hra⟩ := ih (i + 1) (depth + 1) rest _ (by omega) hr hb'
    have hL : Created (tightCfg S N d c) (depth + 1) i [i] (b.setMax ⟨i, hi⟩ (1 / 2)) (.leaf i (i + 1)) [i]
        (leafBox (tightCfg S N d c) [i] (b.setMax ⟨i, hi⟩ (1 / 2))) :=
      Created.leaf (seg := [i]) (by simp [isLeaf, KdTree.cfg, tightOpts, hcast])
    have hlen : seg.length = m + 2 := by rw [hs.length_eq, List.length_range']
    have hbr := Created.branch (C := tightCfg S N d c) (depth := depth) (o := i) (seg := seg) (box := b) (l := .leaf i (i + 1))
      (by simp [isLeaf, KdTree.cfg, tightOpts, hcast, hlen]; omega) hsp hL hcr
    have hL1 : (leafBox (tightCfg S N d c) [i] (b.setMax ⟨i, hi⟩ (1 / 2))).max ⟨i, hi⟩ = 0 := by
      rw [(tight_leafBox hc hbig hlow i _ _).2, tight_self]
    have hR1 : B.min ⟨i, hi⟩ = 1 := hmin _ (by simp)
    have hpick : pickEuclidean (metricLPInf K d) (fun _ => 0)
        ((tightCfg S N d c).setBranch (leafBox (tightCfg S N d c) [i] (b.setMax ⟨i, hi⟩ (1 / 2))) B ⟨i, hi⟩) = (true, 1) := by
      show (if (leafBox (tightCfg S N d c) [i] (b.setMax ⟨i, hi⟩ (1 / 2))).max ⟨i, hi⟩ + B.min ⟨i, hi⟩ - 0 - 0 > 0 then
        (true, (metricLPInf K d).one (B.min ⟨i, hi⟩ - 0)) else _) = _
      rw [hL1, hR1, if_pos (by norm_num), lpinf_one]
      simp
    refine ⟨.branch ((tightCfg S N d c).setBranch (leafBox (tightCfg S N d c) [i] (b.setMax ⟨i, hi⟩ (1 / 2))) B ⟨i, hi⟩)
      (.leaf i (i + 1)) t, (leafBox (tightCfg S N d c) [i] (b.setMax ⟨i, hi⟩ (1 / 2))).fitBox B, ?_, ?_, ?_, ?_⟩
    · rw [List.range'_succ]; exact hbr
    · intro j hj
      show (if B.min j < (leafBox (tightCfg S N d c) [i] (b.setMax ⟨i, hi⟩ (1 / 2))).min j then B.min j else
        (leafBox (tightCfg S N d c) [i] (b.setMax ⟨i, hi⟩ (1 / 2))).min j) = 1
      rw [hmin j (by omega), (tight_leafBox hc hbig hlow i _ j).1]
      have := tight_other hc (k := i) j.2 hj
      split_ifs with h
      · rfl
      · exact le_antisymm (not_lt.1 h) this
    · intro hic offs s ho hst
      have hvisit : visitAll nnVisitor (fun i => (metricLPInf K d).dist (fun _ => 0) (tightPts d c i)) [i] s = ⟨0, c⟩ := by
        show (if s.distance > (metricLPInf K d).dist (fun _ => 0) (tightPts d c i) then
          (⟨i, (metricLPInf K d).dist (fun _ => 0) (tightPts d c i)⟩ : Neighbor K) else s) = _
        rw [tight_dist hc hd hi]
        rcases hst with rfl | ⟨rfl, h⟩
        · simp
        · rw [if_pos h]
      have ho1 : offs ⟨i, hi⟩ = 0 := ho _ le_rfl
      have hdim : ((tightCfg S N d c).setBranch (leafBox (tightCfg S N d c) [i] (b.setMax ⟨i, hi⟩ (1 / 2))) B
          ⟨i, hi⟩).splitDim = ⟨i, hi⟩ := rfl
      have hcast' : (i : K) - 0 + 1 = ((i + 1 : Nat) : K) := by push_cast; ring
      unfold tightSearch
      simp only [searchNearest, hpick, hdim, if_true, tight_slice hi.le, hvisit, ho1, hcast']
      split_ifs with hge
      · have := hse hge (Function.update offs ⟨i, hi⟩ 1) ⟨0, c⟩ (fun j hj => by
          rw [Function.update_of_ne (fun h => by rw [h] at hj; simp at hj)]
          exact ho j (by omega)) (.inl rfl)
        unfold tightSearch at this
        rw [this]
        simp [← ho1]
      · rfl

    · intro hic offs s ho
      have hvisit : visitAll (radiusVisitor c) (fun i => (metricLPInf K d).dist (fun _ => 0) (tightPts d c i)) [i] s = s := by
        show (if c > (metricLPInf K d).dist (fun _ => 0) (tightPts d c i) then _ else s) = _
        rw [tight_dist hc hd hi, if_neg (lt_irrefl c)]
      have ho1 : offs ⟨i, hi⟩ = 0 := ho _ le_rfl
      have hdim : ((tightCfg S N d c).setBranch (leafBox (tightCfg S N d c) [i] (b.setMax ⟨i, hi⟩ (1 / 2))) B
          ⟨i, hi⟩).splitDim = ⟨i, hi⟩ := rfl
      have hcast' : (i : K) - 0 + 1 = ((i + 1 : Nat) : K) := by push_cast; ring
      unfold tightRadius
      simp only [searchNearest, hpick, hdim, if_true, tight_slice hi.le, hvisit, ho1, hcast']
      split_ifs with hge
      · have := hra hge (Function.update offs ⟨i, hi⟩ 1) s (fun j hj => by
          rw [Function.update_of_ne (fun h => by rw [h] at hj; simp at hj)]
          exact ho j (by omega))
        unfold tightRadius at this
        rw [this]
        simp [← ho1]
      · rfl

theorem tight_bounds (hbig : 3 * (d : K) < N.big) (hlow : N.low < -(3 * (d : K))) (n : Nat) (S : Std) :
    TightBox 0 (boxFromBounds N (tightPts d c) n (tightOpts (K := K) S d).bounds) := by
  intro j
  obtain ⟨h1, h2⟩ := tightHalf_le (K := K) j
  have hd1 : (1 : K) ≤ (d : K) := by exact_mod_cast (by have := j.2; omega : 1 ≤ d)
  have e1 : 1 / 2 - tightHalf d j < N.big := by linarith
  have e2 : 1 / 2 - tightHalf d j > N.low := by linarith
  have e3 : ¬ (1 / 2 : K) + tightHalf d j < 1 / 2 - tightHalf d j := by intro h; linarith
  have e4 : (1 / 2 : K) + tightHalf d j > 1 / 2 - tightHalf d j := by linarith
  simp only [boxFromBounds, tightOpts, Box.fitPt, Box.inverseMax, e1, e2, e3, e4, if_true, if_false, Nat.not_lt_zero,
    and_self]

/-- C12: no factor below `d` would do. For every dimension, every `1 <= c < d` and whatever the standard library does there
are a tree and a query whose reported neighbor is `c` times as far away as the nearest one, and a search within `c` times
the distance of the nearest one finds nothing at all. -/
theorem c12_tight (S : Std) (hN : ∀ x, N.divTwo x = x / 2) (hbig : 3 * (d : K) < N.big) (hlow : N.low < -(3 * (d : K)))
    (hc : 1 ≤ c) (hcd : c < d) :
    ∃ (pts : Nat → Pt K d) (n : Nat) (o : BuildOpts K d) (fuel : Nat) (T : KdTree K d (Branch1 K d)) (q : Pt K d),
      o.S = S ∧ KdTree.make (euclideanTag K d) (metricLPInf K d) N pts n o fuel = .ok T ∧
      Representable N pts n o ∧ ∃ i < n, ∃ j < n, (∀ nn, T.searchNn q nn = ⟨i, (metricLPInf K d).dist q (pts i)⟩) ∧
        0 < (metricLPInf K d).dist q (pts j) ∧
        (metricLPInf K d).dist q (pts i) = c * (metricLPInf K d).dist q (pts j) ∧
        ∀ sorter prior sort, T.searchRadius sorter q (c * (metricLPInf K d).dist q (pts j)) prior sort = [] := by
  have hd : 2 ≤ d := by
    have : (1 : K) < (d : K) := hc.trans_lt hcd
    exact_mod_cast this
  have hbig' : c < N.big := by linarith
  have hlow' : N.low < -c := by linarith
  obtain ⟨t, B, hcr, _, hse, hra⟩ := tight_created (S := S) hc hcd hN hbig' hlow' d 0 0 (List.range (d + 1))
    (boxFromBounds N (tightPts d c) (d + 1) (tightOpts (K := K) S d).bounds) (by omega)
    (by rw [List.range_eq_range']) (tight_bounds hbig hlow _ _)
  obtain ⟨fuel, hf⟩ := createNode_of_created hcr
  have hf := hf fuel le_rfl
  rw [← List.range_eq_range'] at hf
  refine ⟨tightPts d c, d + 1, tightOpts S d, fuel, ⟨euclideanTag K d, metricLPInf K d, N, tightPts d c, d + 1,
    ⟨List.range (d + 1), boxFromBounds N (tightPts d c) (d + 1) (tightOpts (K := K) S d).bounds, t⟩⟩, fun _ => 0, rfl, ?_,
    ⟨by linarith, ?_, ?_, nofun⟩, 0, by omega, d, by omega, ?_, ?_, ?_, ?_⟩
  · unfold KdTree.make buildTree
    simp only [KdTree.cfg] at hf ⊢
    rw [hf]
    rfl
  · intro i _ j
    have := abs_le.1 (tight_le hc i j)
    exact ⟨by linarith, by linarith⟩
  · have hd1 : (1 : K) ≤ (d : K) := by exact_mod_cast (by omega : 1 ≤ d)
    intro j
    obtain ⟨h1, h2⟩ := tightHalf_le (K := K) j
    exact ⟨⟨by linarith, by linarith⟩, by linarith, by linarith⟩
  · intro nn
    rw [tight_dist hc hd (by omega)]
    have := hse (by simpa using zero_le_one.trans hc) (fun _ => 0) (nnInit N nn) (fun _ _ => rfl) (.inr ⟨rfl, hbig'⟩)
    rw [Nat.cast_zero] at this
    exact congrArg Prod.snd this
  · rw [tight_dist_last (by omega)]; exact one_pos
  · rw [tight_dist_last (by omega), tight_dist hc hd (by omega), mul_one]
  · intro sorter prior sort
    rw [tight_dist_last (by omega), mul_one]
    have := hra (by simpa using zero_le_one.trans hc) (fun _ => 0) (radiusInit prior) (fun _ _ => rfl)
    rw [Nat.cast_zero] at this
    have h0 := congrArg Prod.snd this
    unfold KdTree.searchRadius
    have h1 : KdTree.searchNearest (⟨euclideanTag K d, metricLPInf K d, N, tightPts d c, d + 1,
        ⟨List.range (d + 1), boxFromBounds N (tightPts d c) (d + 1) (tightOpts (K := K) S d).bounds, t⟩⟩ :
          KdTree K d (Branch1 K d)) (fun _ => 0) (radiusVisitor c) (radiusInit prior) = [] := h0
    simp only [h1]
    split_ifs
    · exact List.perm_nil.1 (sorter.sort_perm _ _ strictWeak_neighborLt)
    · rfl

/-- Three dimensions, a factor of 5/2, rational numbers. -/
example (S : Std) : ∃ (pts : Nat → Pt Rat 3) (n : Nat) (o : BuildOpts Rat 3) (fuel : Nat) (T : KdTree Rat 3 (Branch1 Rat 3))
    (q : Pt Rat 3), o.S = S ∧ KdTree.make (euclideanTag Rat 3) (metricLPInf Rat 3) Ref.ratNum pts n o fuel = .ok T ∧
      Representable Ref.ratNum pts n o ∧
      ∃ i < n, ∃ j < n, (∀ nn, T.searchNn q nn = ⟨i, (metricLPInf Rat 3).dist q (pts i)⟩) ∧
        0 < (metricLPInf Rat 3).dist q (pts j) ∧
        (metricLPInf Rat 3).dist q (pts i) = 5 / 2 * (metricLPInf Rat 3).dist q (pts j) ∧
        ∀ sorter prior sort, T.searchRadius sorter q (5 / 2 * (metricLPInf Rat 3).dist q (pts j)) prior sort = [] :=
  c12_tight S (fun _ => rfl) (by norm_num [Ref.ratNum]) (by norm_num [Ref.ratNum]) (by norm_num) (by norm_num)

/-- Two points: `(c, …, c)`, and `4 c` in coordinate 0 and zero in the others. -/
def lnPts (d : Nat) (c : K) (k : Nat) : Pt K d := fun j =>
  if k = 0 then c else if (j : Nat) = 0 then 4 * c else 0

/-- Sliding midpoint rule, one point per leaf, bounds of the points. -/
def lnOpts (S : Std) (d : Nat) : BuildOpts K d := ⟨S, .sliding, .maxLeafSize 1, .fromSpace, 32⟩

/-- The configuration of the builder. -/
abbrev lnCfg (S : Std) (N : Num K) (d : Nat) (c : K) : BuildCfg K d (Branch1 K d) :=
  KdTree.cfg (euclideanTag K d) N (lnPts d c) (lnOpts S d)

theorem ln_bounds (hc : 0 < c) (hbig : 4 * c < N.big) (hlow : N.low < 0) (j : Fin d) :
    (boxFromBounds N (lnPts d c) 2 .fromSpace).min j = (if (j : Nat) = 0 then c else 0) ∧
    (boxFromBounds N (lnPts d c) 2 .fromSpace).max j = (if (j : Nat) = 0 then 4 * c else c) := by
  have e1 : c < N.big := by linarith
  have e2 : N.low < c := by linarith
  have e3 : ¬ 4 * c < c := by intro h; linarith
  have e4 : c < 4 * c := by linarith
  have hr : List.range 2 = [0, 1] := rfl
  by_cases hj : (j : Nat) = 0
  · simp [boxFromBounds, hr, Box.fitPt, Box.inverseMax, lnPts, hj, e1, e2, e3, e4]
  · simp [boxFromBounds, hr, Box.fitPt, Box.inverseMax, lnPts, hj, e1, e2, hc, not_lt.2 hc.le]

theorem ln_leafBox {S : Std} (hc : 0 < c) (hbig : 4 * c < N.big) (hlow : N.low < 0) (k : Nat) (b : Box K d) (j : Fin d) :
    (leafBox (lnCfg S N d c) [k] b).min j = lnPts d c k j ∧ (leafBox (lnCfg S N d c) [k] b).max j = lnPts d c k j := by
  have h : lnPts d c k j < N.big ∧ N.low < lnPts d c k j := by
    unfold lnPts
    split_ifs <;> constructor <;> linarith
  constructor
  · show (if lnPts d c k j < N.big then lnPts d c k j else N.big) = _
    rw [if_pos h.1]
  · show (if lnPts d c k j > N.low then lnPts d c k j else N.low) = _
    rw [if_pos h.2]

/-- `std::partition` of two elements of which the first one goes to the left. -/
theorem partition_two (S : Std) {f : Nat → Bool} (p0 : f 0 = true) (p1 : f 1 = false) :
    S.partition f [0, 1] = ([0, 1], 1) := by
  rcases hp : S.partition f [0, 1] with ⟨l, k⟩
  have h1 := S.partition_perm f [0, 1]
  have h2 := S.partition_left f [0, 1]
  have h3 := S.partition_right f [0, 1]
  rw [hp] at h1 h2 h3
  simp only at h1 h2 h3
  have hkl : l = [0, 1] ∧ k = 1 := by
    have hlen := h1.length_eq
    rcases l with _ | ⟨a, _ | ⟨b, _ | ⟨e, t⟩⟩⟩
    · simp at hlen
    · simp at hlen
    · have ha : a = 0 ∨ a = 1 := by simpa using h1.mem_iff.1 (List.mem_cons_self (a := a))
      have hbm : b = 0 ∨ b = 1 := by simpa using h1.mem_iff.1 (by simp : b ∈ [a, b])
      have hne : a ≠ b := by
        have := h1.nodup_iff.2 (by decide : [0, 1].Nodup)
        simpa using this
      rcases k with _ | _ | k
      · have e1 := h3 a (by simp)
        have e2 := h3 b (by simp)
        rcases ha with rfl | rfl
        · rw [p0] at e1; simp at e1
        · rcases hbm with rfl | rfl
          · rw [p0] at e2; simp at e2
          · exact absurd rfl hne
      · have e1 := h2 a (by simp)
        rcases ha with rfl | rfl
        · rcases hbm with rfl | rfl
          · exact absurd rfl hne
          · simp
        · rw [p1] at e1; simp at e1
      · have e1 := h2 a (by simp)
        have e2 := h2 b (by simp)
        rcases ha with rfl | rfl
        · rcases hbm with rfl | rfl
          · exact absurd rfl hne
          · rw [p1] at e2; simp at e2
        · rw [p1] at e1; simp at e1
    · simp at hlen
  rw [hkl.1, hkl.2]

theorem ln_splitter {S : Std} (hc : 0 < c) (hN : ∀ x, N.divTwo x = x / 2) (hbig : 4 * c < N.big) (hlow : N.low < 0)
    (hd : 0 < d) :
    splitter (lnCfg S N d c) [0, 1] (boxFromBounds N (lnPts d c) 2 .fromSpace) =
      .ok ⟨[0, 1], 1, ⟨0, hd⟩, 3 * c / 2 + c⟩ := by
  have hb := ln_bounds (d := d) hc hbig hlow
  have hside : (boxFromBounds N (lnPts d c) 2 .fromSpace).maxSide N = (some ⟨0, hd⟩, 3 * c) := by
    have hs : (boxFromBounds N (lnPts d c) 2 .fromSpace).max ⟨0, hd⟩ -
        (boxFromBounds N (lnPts d c) 2 .fromSpace).min ⟨0, hd⟩ = 3 * c := by
      rw [(hb _).1, (hb _).2]; simp; ring
    rcases h : (boxFromBounds N (lnPts d c) 2 .fromSpace).maxSide N with ⟨_ | dim, delta⟩
    · have := maxSide_none (by rw [h]) (⟨0, hd⟩ : Fin d)
      linarith
    · obtain ⟨h1, _, _, h4⟩ := maxSide_some h
      have h5 := h4 ⟨0, hd⟩
      rw [hs, h1, (hb dim).1, (hb dim).2] at h5
      have hdim : dim = ⟨0, hd⟩ := by
        by_contra hne
        have : (dim : Nat) ≠ 0 := fun h => hne (Fin.ext h)
        rw [if_neg this, if_neg this] at h5
        linarith
      subst hdim
      rw [h1, hs]
  have p0 : coordBelow (lnPts d c) ⟨0, hd⟩ (3 * c / 2 + c) 0 = true := by
    simp only [coordBelow, lnPts, if_true, decide_eq_true_eq]; linarith
  have p1 : coordBelow (lnPts d c) ⟨0, hd⟩ (3 * c / 2 + c) 1 = false := by
    simp only [coordBelow, lnPts, if_true, decide_eq_false_iff_not, one_ne_zero, if_false]; intro h; linarith
  have hp := partition_two S p0 p1
  have hval : N.divTwo (3 * c) + (boxFromBounds N (lnPts d c) 2 .fromSpace).min ⟨0, hd⟩ = 3 * c / 2 + c := by
    rw [hN, (hb _).1]; simp
  show splitSliding S N (lnPts d c) [0, 1] _ = _
  unfold splitSliding
  rw [hside]
  simp only [hval, hp]
  simp

/-- C13: with `metric_lninf` no factor would do. In every dimension from two on and for every `c` there is a tree whose
search reports a point at distance `c`, though there is one at distance zero. -/
theorem c13_unbounded (S : Std) (hN : ∀ x, N.divTwo x = x / 2) (hd : 2 ≤ d) (hc : 0 < c) (hbig : 4 * c < N.big)
    (hlow : N.low < 0) :
    ∃ (pts : Nat → Pt K d) (n : Nat) (o : BuildOpts K d) (fuel : Nat) (T : KdTree K d (Branch1 K d)) (q : Pt K d),
      o.S = S ∧ KdTree.make (euclideanTag K d) (metricLNInf N d) N pts n o fuel = .ok T ∧ Representable N pts n o ∧
      ∃ i < n, ∃ j < n, (∀ nn, T.searchNn q nn = ⟨i, c⟩) ∧ (metricLNInf N d).dist q (pts i) = c ∧
        (metricLNInf N d).dist q (pts j) = 0 := by
  have hd0 : 0 < d := by omega
  have hcast : castIndex 32 1 = 1 := by decide
  have hlast : ∀ j : Fin d, |(0 : K) - lnPts d c 1 j| = if (j : Nat) = 0 then 4 * c else 0 := by
    intro j
    unfold lnPts
    split_ifs <;> simp_all [abs_of_pos]
  have hfirst : ∀ j : Fin d, |(0 : K) - lnPts d c 0 j| = c := by
    intro j; simp [lnPts, abs_of_pos hc]
  have hd1 : (metricLNInf N d).dist (fun _ => 0) (lnPts d c 0) = c := by
    obtain ⟨_, j, h2⟩ := c13_distance (N := N) (fun _ => (0 : K)) (lnPts d c 0)
      ⟨⟨0, hd0⟩, by rw [hfirst]; linarith⟩
    rw [← h2]; exact hfirst j
  have hd2 : (metricLNInf N d).dist (fun _ => 0) (lnPts d c 1) = 0 := by
    obtain ⟨h1, j, h2⟩ := c13_distance (N := N) (fun _ => (0 : K)) (lnPts d c 1)
      ⟨⟨0, hd0⟩, by rw [hlast]; simpa using hbig.le⟩
    refine le_antisymm ?_ (by rw [← h2]; exact abs_nonneg _)
    have := h1 ⟨1, by omega⟩
    rw [hlast] at this
    simpa using this
  let b := boxFromBounds N (lnPts d c) 2 .fromSpace
  have hL : Created (lnCfg S N d c) (0 + 1) 0 [0] (b.setMax ⟨0, hd0⟩ (3 * c / 2 + c)) (.leaf 0 1) [0] _ :=
    Created.leaf (seg := [0]) (by simp [isLeaf, KdTree.cfg, lnOpts, hcast])
  have hR : Created (lnCfg S N d c) (0 + 1) 1 [1] (b.setMin ⟨0, hd0⟩ (3 * c / 2 + c)) (.leaf 1 2) [1] _ :=
    Created.leaf (seg := [1]) (by simp [isLeaf, KdTree.cfg, lnOpts, hcast])
  have hbr := Created.branch (C := lnCfg S N d c) (depth := 0) (o := 0) (seg := [0, 1]) (box := b) (l := .leaf 0 1)
    (r := .leaf 1 2) (by simp [isLeaf, KdTree.cfg, lnOpts, hcast]) (ln_splitter hc hN hbig hlow hd0) hL hR
  obtain ⟨fuel, hf⟩ := createNode_of_created hbr
  have hf := hf fuel le_rfl
  have hL1 := (ln_leafBox (S := S) hc hbig hlow 0 (b.setMax ⟨0, hd0⟩ (3 * c / 2 + c)) ⟨0, hd0⟩).2
  have hR1 := (ln_leafBox (S := S) hc hbig hlow 1 (b.setMin ⟨0, hd0⟩ (3 * c / 2 + c)) ⟨0, hd0⟩).1
  have hL2 : lnPts d c 0 ⟨0, hd0⟩ = c := by simp [lnPts]
  have hR2 : lnPts d c 1 ⟨0, hd0⟩ = 4 * c := by simp [lnPts]
  rw [hL2] at hL1
  rw [hR2] at hR1
  generalize hBL : leafBox (lnCfg S N d c) [0] (b.setMax ⟨0, hd0⟩ (3 * c / 2 + c)) = BL at hf hL1
  generalize hBR : leafBox (lnCfg S N d c) [1] (b.setMin ⟨0, hd0⟩ (3 * c / 2 + c)) = BR at hf hR1
  refine ⟨lnPts d c, 2, lnOpts S d, fuel, ⟨euclideanTag K d, metricLNInf N d, N, lnPts d c, 2,
    ⟨[0, 1], b, .branch (setBranchEuclidean BL BR ⟨0, hd0⟩) (.leaf 0 1) (.leaf 1 2)⟩⟩, fun _ => 0, rfl, ?_,
    ⟨by linarith, ?_, trivial, nofun⟩, 0, by omega, 1, by omega, ?_, hd1, hd2⟩
  · unfold KdTree.make buildTree
    have hr : List.range 2 = [0, 1] := rfl
    rw [hr]
    show ((createNode (lnCfg S N d c) fuel 0 0 [0, 1] b).bind _).bind _ = _
    rw [hf]
    rfl
  · intro i _ j
    unfold lnPts
    split_ifs <;> constructor <;> linarith
  · intro nn
    have hpick : pickEuclidean (metricLNInf N d) (fun _ => 0) (setBranchEuclidean BL BR ⟨0, hd0⟩) = (true, 4 * c) := by
      show (if BL.max ⟨0, hd0⟩ + BR.min ⟨0, hd0⟩ - 0 - 0 > 0 then
        (true, (metricLNInf N d).one (BR.min ⟨0, hd0⟩ - 0)) else _) = _
      rw [hL1, hR1, if_pos (by linarith), lninf_one, sub_zero, abs_of_pos (by linarith)]
    have hv : visitAll nnVisitor (fun i => (metricLNInf N d).dist (fun _ => 0) (lnPts d c i)) [0] (nnInit N nn) = ⟨0, c⟩ := by
      show (if N.big > (metricLNInf N d).dist (fun _ => 0) (lnPts d c 0) then
        (⟨0, (metricLNInf N d).dist (fun _ => 0) (lnPts d c 0)⟩ : Neighbor K) else _) = _
      rw [hd1, if_pos (by linarith)]
    have hs : slice [0, 1] 0 1 = [0] := rfl
    have hgt : ¬ nnVisitor.max (⟨0, c⟩ : Neighbor K) ≥ 0 - 0 + 4 * c := by
      intro h
      have h' : c ≥ 0 - 0 + 4 * c := h
      linarith
    simp only [KdTree.searchNn, KdTree.searchNearest, searchNearestRoot, searchNearest, euclideanTag, hpick, if_true, hs, hv]
    rw [if_neg hgt]

/-- Two dimensions, rational numbers: a point at distance 1000 is reported, one is at distance 0. -/
example (S : Std) : ∃ (pts : Nat → Pt Rat 2) (n : Nat) (o : BuildOpts Rat 2) (fuel : Nat) (T : KdTree Rat 2 (Branch1 Rat 2))
    (q : Pt Rat 2), o.S = S ∧ KdTree.make (euclideanTag Rat 2) (metricLNInf Ref.ratNum 2) Ref.ratNum pts n o fuel = .ok T ∧
      Representable Ref.ratNum pts n o ∧
      ∃ i < n, ∃ j < n, (∀ nn, T.searchNn q nn = ⟨i, 1000⟩) ∧ (metricLNInf Ref.ratNum 2).dist q (pts i) = 1000 ∧
        (metricLNInf Ref.ratNum 2).dist q (pts j) = 0 :=
  c13_unbounded S (fun _ => rfl) le_rfl (by norm_num) (by norm_num [Ref.ratNum]) (by norm_num [Ref.ratNum])

end Pico.Props
