import Verif.Proof.Spread
import Verif.Proof.MidpointRounding
import Verif.Props.Work
import Verif.Props.MidpointFloat
import Verif.Props.MachineInt

/-!
# C124: the height of a tree whose cells are halved

The midpoint rules halve the longest side of a cell.  If different points differ by at least `s` along some
axis, a cell with more than `max_leaf_size` points has a side of at least `s`, so the height is bounded by the
number of times the sides of the box can be halved, whatever the number of points.
-/

set_option linter.unusedSectionVars false

namespace Pico.Props

open Pico Spec

section
variable {α : Type} [LinearOrder α] [Add α] [Sub α] {d : Nat} {β : Type}
  {tag : SpaceTag α d β} {M : Metric α d} {N : Num α} {pts : Nat → Pt α d} {n : Nat}
  {o : BuildOpts α d} {fuel : Nat} {T : KdTree α d β} {m : Nat}
  {K : Type} [Field K] [LinearOrder K] [IsStrictOrderedRing K]

/-- The stored box is the start box. -/
theorem make_startBox (h : KdTree.make tag M N pts n o fuel = .ok T) :
    T.data.rootBox = boxFromBounds N pts n o.bounds := by
  have := (KdTree.make_ok h).2.2.2.2.2
  unfold buildTree at this
  cases hcn : createNode (KdTree.cfg tag N pts o) fuel 0 0 (List.range n)
      (boxFromBounds (KdTree.cfg tag N pts o).N (KdTree.cfg tag N pts o).pts n o.bounds) with
  | ub => simp [hcn, Outcome.bind] at this
  | oof => simp [hcn, Outcome.bind] at this
  | ok x =>
    simp only [hcn, Outcome.bind, Outcome.ok.injEq] at this
    rw [← this]
    rfl

theorem height_of_shorter (h : KdTree.make tag M N pts n o fuel = .ok T) (hr : o.rule ≠ .median)
    (hs : o.stop = .maxLeafSize m) (hm1 : 1 ≤ m) (hm : m < 2 ^ (o.indexBits - 1)) {val : α → K} {lo hi G : α}
    {r g : K} (hS : ShorterBy val (halver (KdTree.cfg tag N pts o)) lo hi G r g)
    (hsep : ∀ i < n, ∀ k < n, pts i ≠ pts k → ∃ j, G ≤ pts k j - pts i j ∨ G ≤ pts i j - pts k j)
    (hdup : ∀ p, (List.range n).countP (fun i => decide (pts i = p)) ≤ m)
    (hbox : ∀ i < n, T.data.rootBox.Mem (pts i)) (L : Nat)
    (hw : ∀ j, lo ≤ T.data.rootBox.min j ∧ T.data.rootBox.max j ≤ hi)
    (hside : ∀ j, val (T.data.rootBox.max j) - val (T.data.rootBox.min j) < g * r ^ L) :
    height T.data.root ≤ d * L ∧ visits T.data.root ≤ n * (d * L + 1) := by
  obtain ⟨box, hc⟩ := created_of_make h
  have hrb := make_startBox h
  rw [hrb] at hbox hw hside
  have h1 := hc.height_le_spread (n := n) hr hS hs hm1 hm hsep (fun _ => L) hside hw
    (fun i hi => List.mem_range.1 hi) (fun i hi => hbox i (List.mem_range.1 hi)) hdup
  rw [Finset.sum_const, Finset.card_univ, Fintype.card_fin, smul_eq_mul] at h1
  have h2 := hc.size_eq
  rw [List.length_range] at h2
  refine ⟨h1, (visits_le _).trans ?_⟩
  rw [h2]
  exact Nat.mul_le_mul_left _ (by omega)

/-- C124 is false if the midpoint of the start box is rounded to its lower side: the sliding midpoint rule
takes the points on that side away one at a time, even if they all differ. -/
theorem c124_stuck (h : KdTree.make tag M N pts n o fuel = .ok T) (hr : o.rule = .sliding)
    (hs : o.stop = .maxLeafSize m) (hm1 : 1 ≤ m) (hm : m < 2 ^ (o.indexBits - 1)) {j : Fin d} {delta c : α}
    (hside : (boxFromBounds N pts n o.bounds).maxSide N = (some j, delta))
    (hc : (boxFromBounds N pts n o.bounds).min j = c) (hstuck : N.divTwo delta + c = c)
    (hge : ∀ i < n, c ≤ pts i j) {low : List Nat} (hnd : low.Nodup) (hlow : ∀ i ∈ low, i < n ∧ pts i j = c) :
    low.length ≤ height T.data.root + m := by
  obtain ⟨box, hcr⟩ := created_of_make h
  have := hcr.stuck_le_height (C := KdTree.cfg tag N pts o) hr hs hm1 hm hside (by rw [hc]; exact hstuck)
    (fun i hi => by rw [hc]; exact hge i (List.mem_range.1 hi))
  refine le_trans ?_ this
  have hsub : low.Subperm (List.range n) := hnd.subperm fun i hi => List.mem_range.2 (hlow i hi).1
  have := hsub.countP_le (fun i => decide (pts i j = (boxFromBounds N pts n o.bounds).min j))
  rwa [List.countP_eq_length.2 (fun i hi => by rw [hc]; simpa using (hlow i hi).2)] at this

end

section Exact
variable {α : Type} [Field α] [LinearOrder α] [IsStrictOrderedRing α] {d : Nat} {β : Type}
  {tag : SpaceTag α d β} {M : Metric α d} {N : Num α} {pts : Nat → Pt α d} {n : Nat}
  {o : BuildOpts α d} {fuel : Nat} {T : KdTree α d β} {m : Nat}

theorem shorterBy_exact {C : BuildCfg α d β} (hmul : ∀ x, C.N.mulHalf x = x / 2)
    (hdiv : ∀ x, C.N.divTwo x = x / 2) {s : α} (hs : 0 < s) (lo hi : α) :
    ShorterBy id (halver C) lo hi s 2 s := by
  have hh : ∀ x, halver C x = x / 2 := by
    intro x; unfold halver; split
    · exact hmul x
    · exact hdiv x
  refine ⟨strictMono_id, ?_, ?_, ?_, ?_, ?_, ?_, by norm_num⟩
  · intro a b _ _ _ h; rw [hh]; linarith
  · intro a b _ _ _ h; rw [hh]; linarith
  · intro a b _ _ _ h; rw [hh]; simp only [id]; linarith
  · intro a b _ _ _ h; rw [hh]; simp only [id]; linarith
  · intros; linarith
  · intro a b _ _ _ h; exact h

/-- C124 (partial: exact arithmetic; missing: rounded arithmetic, see `c124_float_false` and `c124_int_false`):
if at most `m` points coincide, different points differ by at least `s` along some axis, and the sides of the
start box are shorter than `s 2^L`, the midpoint rules build a tree of at most `d L` levels, whatever the number
of points, and the construction looks at no more than `n (d L + 1)` points. -/
theorem c124_exact_partial (h : KdTree.make tag M N pts n o fuel = .ok T) (hr : o.rule ≠ .median)
    (hs : o.stop = .maxLeafSize m) (hm1 : 1 ≤ m) (hm : m < 2 ^ (o.indexBits - 1))
    (hmul : ∀ x, N.mulHalf x = x / 2) (hdiv : ∀ x, N.divTwo x = x / 2) {s : α} (hs0 : 0 < s)
    (hsep : ∀ i < n, ∀ k < n, pts i ≠ pts k → ∃ j, s ≤ |pts i j - pts k j|)
    (hdup : ∀ p, (List.range n).countP (fun i => decide (pts i = p)) ≤ m)
    (hbox : ∀ i < n, ∀ j, T.data.rootBox.min j ≤ pts i j ∧ pts i j ≤ T.data.rootBox.max j) (L : Nat)
    (hside : ∀ j, T.data.rootBox.max j - T.data.rootBox.min j < s * 2 ^ L) :
    height T.data.root ≤ d * L ∧ visits T.data.root ≤ n * (d * L + 1) := by
  obtain ⟨lo, hlo⟩ : ∃ lo, ∀ j, lo ≤ T.data.rootBox.min j := by
    refine ⟨-∑ j, |T.data.rootBox.min j|, fun j => ?_⟩
    have := Finset.single_le_sum (f := fun j => |T.data.rootBox.min j|) (fun j _ => abs_nonneg _)
      (Finset.mem_univ j)
    exact (neg_le_neg this).trans (neg_abs_le _)
  obtain ⟨hi, hhi⟩ : ∃ hi, ∀ j, T.data.rootBox.max j ≤ hi := by
    refine ⟨∑ j, |T.data.rootBox.max j|, fun j => ?_⟩
    have := Finset.single_le_sum (f := fun j => |T.data.rootBox.max j|) (fun j _ => abs_nonneg _)
      (Finset.mem_univ j)
    exact (le_abs_self _).trans this
  refine height_of_shorter h hr hs hm1 hm (shorterBy_exact (C := KdTree.cfg tag N pts o) hmul hdiv hs0 lo hi) ?_
    hdup hbox L (fun j => ⟨hlo j, hhi j⟩) hside
  intro i hi k hk hne
  obtain ⟨j, hj⟩ := hsep i hi k hk hne
  refine ⟨j, ?_⟩
  rcases le_abs.1 hj with h1 | h1
  · exact .inr h1
  · exact .inl (by linarith)

/-- C124 (partial, as above), with the bounds of the points: they lie in a box with sides shorter than
`s 2^L`. -/
theorem c124_space_partial (h : KdTree.make tag M N pts n o fuel = .ok T) (hr : o.rule ≠ .median)
    (hs : o.stop = .maxLeafSize m) (hm1 : 1 ≤ m) (hm : m < 2 ^ (o.indexBits - 1)) (hb : o.bounds = .fromSpace)
    (hmul : ∀ x, N.mulHalf x = x / 2) (hdiv : ∀ x, N.divTwo x = x / 2) {s : α} (hs0 : 0 < s)
    (hsep : ∀ i < n, ∀ k < n, pts i ≠ pts k → ∃ j, s ≤ |pts i j - pts k j|)
    (hdup : ∀ p, (List.range n).countP (fun i => decide (pts i = p)) ≤ m) (L : Nat) {a b : Pt α d}
    (hab : ∀ j, b j - a j < s * 2 ^ L) (hp : ∀ i < n, ∀ j, a j ≤ pts i j ∧ pts i j ≤ b j)
    (hN : ∀ j, N.low ≤ b j ∧ a j ≤ N.big) :
    height T.data.root ≤ d * L ∧ visits T.data.root ≤ n * (d * L + 1) := by
  have hrb := make_startBox h
  rw [hb] at hrb
  refine c124_exact_partial h hr hs hm1 hm hmul hdiv hs0 hsep hdup
    (by rw [hrb]; exact boxFromBounds_fromSpace_mem N pts n) L (fun j => lt_of_le_of_lt ?_ (hab j))
  rw [hrb]
  have h1 : a j ≤ (boxFromBounds N pts n .fromSpace).min j :=
    (foldl_fitPt_min pts _ _ j _).2 ⟨(hN j).2, fun i hi => (hp i (List.mem_range.1 hi) j).1⟩
  have h2 : (boxFromBounds N pts n .fromSpace).max j ≤ b j :=
    (foldl_fitPt_max pts _ _ j _).2 ⟨(hN j).1, fun i hi => (hp i (List.mem_range.1 hi) j).2⟩
  linarith

end Exact

section Rounded
variable {K : Type} [Field K] [LinearOrder K] [IsStrictOrderedRing K] {R : Rounding K} {d : Nat} {β : Type}
  {tag : SpaceTag R.F d β} {M : Metric R.F d} {pts : Nat → Pt R.F d} {n : Nat} {o : BuildOpts R.F d} {fuel : Nat}
  {T : KdTree R.F d β} {m : Nat} {u : K} {low big : R.F}

theorem shorterBy_rounding {C : BuildCfg R.F d β} (hC : C.N = R.num low big) (hu : R.Error u) (hu0 : 0 ≤ u)
    (hu1 : u ≤ 1 / 16) {B G : R.F} (hG : 0 < G) (hGB : 16 * u * B.1 ≤ G.1)
    (hhalf : ∀ x : R.F, G ≤ x → |R.rd (x.1 / 2) - x.1 / 2| ≤ u * (x.1 / 2)) :
    ShorterBy (fun x : R.F => x.1) (halver C) (-B) B G (5 / 4) (G.1 / 2) := by
  have hG0 : 0 < G.1 := by rw [R.lt_iff] at hG; exact hG
  have hS := shorter_of_error (low := low) (big := big) (lo := -B) (hi := B) (B := B.1) hu hu0 hu1
    (by rw [R.val_neg]) le_rfl hG0 hGB hhalf
  have hh : ∀ x, halver C x = (R.num low big).mulHalf x := by
    intro x
    unfold halver
    rw [hC]
    split <;> rfl
  refine ⟨fun a b hab => hab, ?_, ?_, ?_, ?_, ?_, ?_, by norm_num⟩
  · intro a b h1 _ h2 h3; rw [hh]; exact (hS a b h1 h2 h3).1
  · intro a b h1 _ h2 h3; rw [hh]; exact (hS a b h1 h2 h3).2.1
  · intro a b h1 _ h2 h3; rw [hh]; exact (hS a b h1 h2 h3).2.2.1
  · intro a b h1 _ h2 h3; rw [hh]; exact (hS a b h1 h2 h3).2.2.2
  · intro a b x y _ _ h1 _ _ h2; exact Rounding.sub_mono h1 h2
  · intro a b _ _ _ hab
    rw [R.le_iff, R.val_sub] at hab
    have e1 : |R.rd (b.1 - a.1) - (b.1 - a.1)| ≤ u * |b.1 - a.1| := by
      have := hu b.1 (-a.1) b.2 (by rw [R.odd, a.2])
      simpa [sub_eq_add_neg] using this
    have hpos : 0 < b.1 - a.1 := by
      by_contra hc
      push Not at hc
      have := R.mono _ _ hc
      rw [R.rd_zero] at this
      linarith
    rw [abs_of_pos hpos] at e1
    have := (abs_le.1 e1).2
    nlinarith

/-- C124 (partial: different points differ along some axis by at least `16 u` times the largest coordinate;
missing: closer points, see `c124_float_false`): with rounding errors of at most `u`, the midpoint rules build a
tree of at most `d L` levels if `2 B < G / 2 (5 / 4)^L`. -/
theorem c124_rounding_partial (h : KdTree.make tag M (R.num low big) pts n o fuel = .ok T) (hr : o.rule ≠ .median)
    (hs : o.stop = .maxLeafSize m) (hm1 : 1 ≤ m) (hm : m < 2 ^ (o.indexBits - 1)) (hu : R.Error u) (hu0 : 0 ≤ u)
    (hu1 : u ≤ 1 / 16) (hn : 0 < n) {B G : R.F} (hN : low ≤ 0 ∧ 0 ≤ big) (hB : 0 ≤ B)
    (hp : ∀ i < n, ∀ j, -B ≤ pts i j ∧ pts i j ≤ B)
    (hb : ∀ mn mx, o.bounds = .given mn mx → ∀ j, (-B ≤ mn j ∧ mn j ≤ B) ∧ (-B ≤ mx j ∧ mx j ≤ B))
    (hbox : ∀ i < n, ∀ j, T.data.rootBox.min j ≤ pts i j ∧ pts i j ≤ T.data.rootBox.max j) (hG : 0 < G)
    (hGB : 16 * u * B.1 ≤ G.1)
    (hsep : ∀ i < n, ∀ k < n, pts i ≠ pts k → ∃ j, G.1 ≤ |(pts i j).1 - (pts k j).1|)
    (hhalf : ∀ x : R.F, G ≤ x → |R.rd (x.1 / 2) - x.1 / 2| ≤ u * (x.1 / 2))
    (hdup : ∀ p, (List.range n).countP (fun i => decide (pts i = p)) ≤ m) (L : Nat)
    (hL : 2 * B.1 < G.1 / 2 * (5 / 4) ^ L) :
    height T.data.root ≤ d * L ∧ visits T.data.root ≤ n * (d * L + 1) := by
  have hB0 : 0 ≤ B.1 := by rw [R.le_iff] at hB; exact hB
  have hw : Within (-B) B T.data.rootBox := by
    rw [make_startBox h]
    exact boxFromBounds_within hn ⟨hN.1.trans hB, le_trans (by rw [R.le_iff, R.val_neg, R.val_zero]; linarith) hN.2⟩
      hp hb
  refine height_of_shorter h hr hs hm1 hm
    (shorterBy_rounding (C := KdTree.cfg tag (R.num low big) pts o) rfl hu hu0 hu1 hG hGB hhalf) ?_
    hdup hbox L (fun j => ⟨(hw j).1.1, (hw j).2.2⟩) (fun j => ?_)
  · intro i hi k hk hne
    obtain ⟨j, hj⟩ := hsep i hi k hk hne
    refine ⟨j, ?_⟩
    have key : ∀ x : K, G.1 ≤ x → G.1 ≤ R.rd x := fun x hx => by rw [← G.2]; exact R.mono _ _ hx
    rcases le_abs.1 hj with h1 | h1
    · exact .inr (key _ h1)
    · exact .inl (key _ (by linarith))
  · have h1 := (hw j).1.1
    have h2 := (hw j).2.2
    rw [R.le_iff, R.val_neg] at h1
    rw [R.le_iff] at h2
    show (T.data.rootBox.max j).1 - (T.data.rootBox.min j).1 < _
    linarith

end Rounded

/-- C124 (partial, as above) for `float` (`p = 23`) and `double` (`p = 52`): if different points differ along
some axis by at least `2^(3 - p)` times the largest coordinate and by at least twice the smallest normal number,
the midpoint rules build a tree of at most `4 p d` levels, whatever the number of points. -/
theorem c124_ieee_partial {p : Nat} {e : ℤ} {d : Nat} {β : Type} {pts : Nat → Pt (ieee p e).F d} {n : Nat}
    {o : BuildOpts (ieee p e).F d} {low big : (ieee p e).F} {tag : SpaceTag (ieee p e).F d β}
    {M : Metric (ieee p e).F d} {fuel : Nat} {T : KdTree (ieee p e).F d β} {m : Nat}
    (h : KdTree.make tag M ((ieee p e).num low big) pts n o fuel = .ok T) (hr : o.rule ≠ .median) (hp3 : 3 ≤ p)
    (hs : o.stop = .maxLeafSize m) (hm1 : 1 ≤ m) (hm : m < 2 ^ (o.indexBits - 1)) (hn : 0 < n)
    (hbounds : o.bounds = .fromSpace) {B G : (ieee p e).F}
    (hN : low ≤ 0 ∧ 0 ≤ big) (hB : 0 ≤ B) (hp : ∀ i < n, ∀ j, -B ≤ pts i j ∧ pts i j ≤ B)
    (hGB : 8 / 2 ^ p * B.1 ≤ G.1) (hGe : 2 * 2 ^ (e + p) ≤ G.1)
    (hsep : ∀ i < n, ∀ k < n, pts i ≠ pts k → ∃ j, G.1 ≤ |(pts i j).1 - (pts k j).1|)
    (hdup : ∀ p, (List.range n).countP (fun i => decide (pts i = p)) ≤ m) :
    height T.data.root ≤ d * (4 * p) ∧ visits T.data.root ≤ n * (d * (4 * p) + 1) := by
  have hnorm : ∀ x : ℚ, 2 ^ (e + p) ≤ x → |(ieee p e).rd x - x| ≤ 1 / 2 ^ (p + 1) * x := by
    intro x hx
    have h0 : 0 < x := lt_of_lt_of_le (by positivity) hx
    have := roundBits_relative p x
    rw [roundBits_of_pos h0, abs_of_pos h0] at this
    change |roundTiny p e x - x| ≤ _
    rw [roundTiny_of_nonneg h0.le]
    unfold roundTinyPos
    rw [if_pos hx]
    exact this
  have hu1 : (1 : ℚ) / 2 ^ (p + 1) ≤ 1 / 16 := by
    have : (16 : ℚ) ≤ 2 ^ (p + 1) := by
      calc (16 : ℚ) = 2 ^ 4 := by norm_num
        _ ≤ 2 ^ (p + 1) := pow_le_pow_right₀ (by norm_num) (by omega)
    exact one_div_le_one_div_of_le (by norm_num) this
  have hpos : (0 : ℚ) < 2 ^ (e + p) := by positivity
  have hG0 : 0 < G.1 := by linarith
  have hB0 : 0 ≤ B.1 := by rw [(ieee p e).le_iff] at hB; exact hB
  refine c124_rounding_partial h hr hs hm1 hm (ieee_relative p e) (by positivity) hu1 hn hN hB hp
    (by intro mn mx h; rw [hbounds] at h; cases h)
    (by rw [make_startBox h, hbounds]; exact boxFromBounds_fromSpace_mem _ _ _)
    (G := G) ?_ ?_ hsep ?_ hdup (4 * p) ?_
  · rw [(ieee p e).lt_iff, (ieee p e).val_zero]
    exact hG0
  · refine le_trans (le_of_eq ?_) hGB
    rw [pow_succ]
    field_simp
    ring
  · intro x hx
    rw [(ieee p e).le_iff] at hx
    exact hnorm _ (by linarith)
  · have h2p : (0 : ℚ) < 2 ^ p := by positivity
    have h1 : 8 * B.1 ≤ G.1 * 2 ^ p := by
      rw [div_mul_eq_mul_div, div_le_iff₀ h2p] at hGB
      exact hGB
    have h2 : (2 : ℚ) ^ p < (5 / 4) ^ (4 * p) := by
      rw [pow_mul]
      exact pow_lt_pow_left₀ (by norm_num) (by norm_num) (by omega)
    nlinarith [mul_lt_mul_of_pos_left h2 hG0]

section Int
variable {I : MachineInt} {d : Nat} {β : Type} {tag : SpaceTag I.F d β} {M : Metric I.F d} {pts : Nat → Pt I.F d}
  {n : Nat} {o : BuildOpts I.F d} {fuel : Nat} {T : KdTree I.F d β} {m : Nat} {B : ℤ}

theorem shorterBy_int {C : BuildCfg I.F d β} (hC : C.N = I.num) (hr : C.rule ≠ .midpoint) {lo hi G : I.F}
    (hlo : lo.1 = -B) (hhi : hi.1 = B) (h1 : I.lo ≤ -(2 * B)) (h2 : 2 * B ≤ I.hi) (hG : G.1 = 2) (hB : 0 ≤ B) :
    ShorterBy (fun x : I.F => (x.1 : ℚ)) (halver C) lo hi G (3 / 2) 2 := by
  have hh : ∀ x, halver C x = I.num.divTwo x := by
    intro x
    unfold halver
    rw [hC]
    split
    · rename_i h; exact absurd h hr
    · rfl
  have key : ∀ a b : I.F, lo ≤ a → a ≤ b → b ≤ hi → G ≤ b - a →
      -B ≤ a.1 ∧ b.1 ≤ B ∧ 2 ≤ b.1 - a.1 ∧ (I.num.divTwo (b - a) + a).1 = (b.1 - a.1) / 2 + a.1 := by
    intro a b ha hle hb hab
    rw [MachineInt.le_iff, hlo] at ha
    rw [MachineInt.le_iff, hhi] at hb
    rw [MachineInt.le_iff] at hle
    have e1 : (b - a).1 = b.1 - a.1 := I.exact _ (by omega) (by omega)
    rw [MachineInt.le_iff, hG, e1] at hab
    have e2 : (I.num.divTwo (b - a)).1 = (b.1 - a.1) / 2 := by
      have : (I.num.divTwo (b - a)).1 = I.norm ((b - a).1.tdiv 2) := rfl
      rw [this, e1, Int.tdiv_eq_ediv_of_nonneg (by omega)]
      exact I.exact _ (by omega) (by omega)
    refine ⟨ha, hb, hab, ?_⟩
    rw [MachineInt.val_add, e2]
    exact I.exact _ (by omega) (by omega)
  refine ⟨?_, ?_, ?_, ?_, ?_, ?_, ?_, by norm_num⟩
  · intro a b hab
    have h : a.1 < b.1 := hab
    show (a.1 : ℚ) < b.1
    exact_mod_cast h
  · intro a b ha hle hb hab
    obtain ⟨k1, k2, k3, k4⟩ := key a b ha hle hb hab
    rw [hh, MachineInt.le_iff, k4]
    omega
  · intro a b ha hle hb hab
    obtain ⟨k1, k2, k3, k4⟩ := key a b ha hle hb hab
    rw [hh, MachineInt.le_iff, k4]
    omega
  · intro a b ha hle hb hab
    obtain ⟨k1, k2, k3, k4⟩ := key a b ha hle hb hab
    rw [hh]
    show (((I.num.divTwo (b - a) + a).1 : ℚ) - a.1) * (3 / 2) ≤ b.1 - a.1
    rw [k4]
    have : 3 * ((b.1 - a.1) / 2) ≤ 2 * (b.1 - a.1) := by omega
    have : (3 : ℚ) * ((b.1 - a.1) / 2 : ℤ) ≤ 2 * (b.1 - a.1) := by exact_mod_cast this
    push_cast at this ⊢
    linarith
  · intro a b ha hle hb hab
    obtain ⟨k1, k2, k3, k4⟩ := key a b ha hle hb hab
    rw [hh]
    show ((b.1 : ℚ) - (I.num.divTwo (b - a) + a).1) * (3 / 2) ≤ b.1 - a.1
    rw [k4]
    have : 3 * (b.1 - a.1 - (b.1 - a.1) / 2) ≤ 2 * (b.1 - a.1) := by omega
    have : (3 : ℚ) * ((b.1 - a.1 - (b.1 - a.1) / 2 : ℤ)) ≤ 2 * (b.1 - a.1) := by exact_mod_cast this
    push_cast at this ⊢
    linarith
  · intro a b x y ha hb hx1 hx2 hy1 hy2
    rw [MachineInt.le_iff] at *
    rw [hlo] at ha
    rw [hhi] at hb
    rw [MachineInt.val_sub, MachineInt.val_sub, I.exact _ (by omega) (by omega), I.exact _ (by omega) (by omega)]
    omega
  · intro a b ha hle hb hab
    obtain ⟨k1, k2, k3, k4⟩ := key a b ha hle hb hab
    have : ((2 : ℤ) : ℚ) ≤ ((b.1 - a.1 : ℤ) : ℚ) := by exact_mod_cast k3
    push_cast at this
    exact this

/-- C124 (partial: different points differ by at least `2` along some axis; missing: neighbors on the grid, see
`c124_int_false`): signed integers without overflow and the sliding midpoint rule. -/
theorem c124_int_partial (h : KdTree.make tag M I.num pts n o fuel = .ok T) (hr : o.rule = .sliding)
    (hs : o.stop = .maxLeafSize m) (hm1 : 1 ≤ m) (hm : m < 2 ^ (o.indexBits - 1)) (hn : 0 < n)
    (hbounds : o.bounds = .fromSpace) (h1 : I.lo ≤ -(2 * B)) (h2 : 2 * B ≤ I.hi) (hB : 1 ≤ B)
    (hp : ∀ i < n, ∀ j, |(pts i j).1| ≤ B)
    (hsep : ∀ i < n, ∀ k < n, pts i ≠ pts k → ∃ j, 2 ≤ |(pts i j).1 - (pts k j).1|)
    (hdup : ∀ p, (List.range n).countP (fun i => decide (pts i = p)) ≤ m) (L : Nat)
    (hL : (B : ℚ) < (3 / 2) ^ L) :
    height T.data.root ≤ d * L ∧ visits T.data.root ≤ n * (d * L + 1) := by
  have hrb := make_startBox h
  rw [hbounds] at hrb
  obtain ⟨lo, hlo⟩ : ∃ lo : I.F, lo.1 = -B := ⟨⟨-B, by omega, by omega⟩, rfl⟩
  obtain ⟨hi, hhi⟩ : ∃ hi : I.F, hi.1 = B := ⟨⟨B, by omega, by omega⟩, rfl⟩
  obtain ⟨G, hG⟩ : ∃ G : I.F, G.1 = 2 := ⟨⟨2, by omega, by omega⟩, rfl⟩
  have hw : Within lo hi T.data.rootBox := by
    rw [hrb]
    refine boxFromBounds_within hn ⟨?_, ?_⟩ (fun i hi' j => ?_) (by intro mn mx h; cases h)
    · exact hi.2.1
    · exact lo.2.2
    · have := abs_le.1 (hp i hi' j)
      rw [MachineInt.le_iff, MachineInt.le_iff, hlo, hhi]
      exact this
  have hmem : ∀ i < n, T.data.rootBox.Mem (pts i) := by
    rw [hrb]; exact boxFromBounds_fromSpace_mem _ _ _
  refine height_of_shorter h (by rw [hr]; decide) hs hm1 hm
    (shorterBy_int (C := KdTree.cfg tag I.num pts o) rfl (by show o.rule ≠ _; rw [hr]; decide) hlo hhi h1 h2 hG
      (by omega)) ?_ hdup hmem L (fun j => ⟨(hw j).1.1, (hw j).2.2⟩) (fun j => ?_)
  · intro i hi' k hk hne
    obtain ⟨j, hj⟩ := hsep i hi' k hk hne
    have a1 := abs_le.1 (hp i hi' j)
    have a2 := abs_le.1 (hp k hk j)
    refine ⟨j, ?_⟩
    rw [MachineInt.le_iff, MachineInt.le_iff, MachineInt.val_sub, MachineInt.val_sub, hG,
      I.exact _ (by omega) (by omega), I.exact _ (by omega) (by omega)]
    rcases le_abs.1 hj with h3 | h3 <;> omega
  · have b1 := (hw j).1.1
    have b2 := (hw j).2.2
    rw [MachineInt.le_iff] at b1 b2
    have : (((T.data.rootBox.max j).1 - (T.data.rootBox.min j).1 : ℤ) : ℚ) ≤ ((2 * B : ℤ) : ℚ) := by
      exact_mod_cast (by omega)
    push_cast at this
    show ((T.data.rootBox.max j).1 : ℚ) - (T.data.rootBox.min j).1 < _
    linarith

end Int

/-! ## The claim is false for neighboring numbers -/

/-- The corners of the unit cube, with `int` coordinates. -/
def cube (k : Nat) (i : Nat) : Pt int32.F (k + 1) := fun j => if i.testBit j then int32.ofInt 1 else int32.ofInt 0

theorem cube_bounds (k i : Nat) (j : Fin (k + 1)) : int32.ofInt 0 ≤ cube k i j ∧ cube k i j ≤ int32.ofInt 1 := by
  unfold cube
  split_ifs <;> exact ⟨by decide +kernel, by decide +kernel⟩

theorem splitSafe_cube : SplitSafe int32.num (int32.ofInt 0) (int32.ofInt 1) := by
  have two : ∀ x : int32.F, int32.ofInt 0 ≤ x → x ≤ int32.ofInt 1 → x = int32.ofInt 0 ∨ x = int32.ofInt 1 := by
    intro x h1 h2
    have e0 : (int32.ofInt 0).1 = 0 := by decide +kernel
    have e1 : (int32.ofInt 1).1 = 1 := by decide +kernel
    rw [MachineInt.le_iff, e0] at h1
    rw [MachineInt.le_iff, e1] at h2
    rcases (by omega : x.1 = 0 ∨ x.1 = 1) with h | h
    · exact .inl (Subtype.ext (h.trans e0.symm))
    · exact .inr (Subtype.ext (h.trans e1.symm))
  refine ⟨fun x y h1 h2 h3 h4 => ?_, fun x y h1 h2 h3 h4 => ?_, fun x y h1 h2 h3 h4 => ?_⟩ <;>
    rcases two x h1 h2 with rfl | rfl <;> rcases two y h3 h4 with rfl | rfl <;> decide +kernel

theorem maxSide_cube (k : Nat) : (boxFromBounds int32.num (cube k) (2 ^ (k + 1)) .fromSpace).maxSide int32.num =
    (some 0, int32.ofInt 1) ∧ (boxFromBounds int32.num (cube k) (2 ^ (k + 1)) .fromSpace).min 0 = int32.ofInt 0 := by
  have hmin : ∀ j, (boxFromBounds int32.num (cube k) (2 ^ (k + 1)) .fromSpace).min j = int32.ofInt 0 := by
    intro j
    apply le_antisymm
    · have := (boxFromBounds_fromSpace_mem int32.num (cube k) (2 ^ (k + 1)) 0 (by positivity) j).1
      simpa [cube] using this
    · exact (foldl_fitPt_min _ _ _ j _).2 ⟨(by decide +kernel : int32.ofInt 0 ≤ int32.num.big), fun i _ => (cube_bounds k i j).1⟩
  have hmax : ∀ j, (boxFromBounds int32.num (cube k) (2 ^ (k + 1)) .fromSpace).max j = int32.ofInt 1 := by
    intro j
    apply le_antisymm
    · exact (foldl_fitPt_max _ _ _ j _).2 ⟨(by decide +kernel : int32.num.low ≤ int32.ofInt 1), fun i _ => (cube_bounds k i j).2⟩
    · have hp : 2 ^ (k + 1) - 1 < 2 ^ (k + 1) := Nat.sub_lt (by positivity) one_pos
      have := (boxFromBounds_fromSpace_mem int32.num (cube k) (2 ^ (k + 1)) _ hp j).2
      have ht : (2 ^ (k + 1) - 1).testBit j = true := by
        rw [Nat.testBit_two_pow_sub_one]; exact decide_eq_true j.2
      rw [cube, if_pos ht] at this
      exact this
  refine ⟨?_, hmin 0⟩
  rcases hm : (boxFromBounds int32.num (cube k) (2 ^ (k + 1)) .fromSpace).maxSide int32.num with ⟨dim, delta⟩
  cases dim with
  | none =>
    have := maxSide_none (by rw [hm]) 0
    rw [hmin, hmax] at this
    exact absurd this (by decide +kernel)
  | some dim =>
    obtain ⟨h1, _, h3, _⟩ := maxSide_some hm
    rw [hmin, hmax] at h1
    have hd : delta = int32.ofInt 1 := by rw [h1]; decide +kernel
    have : dim = 0 := by
      by_contra hne
      have := h3 0 (Fin.pos_iff_ne_zero.2 hne)
      rw [hmin, hmax, ← h1] at this
      exact lt_irrefl _ this
    rw [this, hd]

/-- C124 is false for integers: the `2^(k+1)` corners of the unit cube all differ by `1`, but the sliding
midpoint rule takes those with the first coordinate `0` away one at a time.  The tree has at least `2^k - 1`
levels instead of `k + 1`. -/
theorem c124_int_false (k : Nat) :
    (∀ i < 2 ^ (k + 1), ∀ i' < 2 ^ (k + 1), i ≠ i' → cube k i ≠ cube k i') ∧
    ∃ fuel T, KdTree.make (euclideanTag int32.F (k + 1)) (metricL2Sq int32.F (k + 1)) int32.num (cube k) (2 ^ (k + 1))
        (Ref.optsSliding int32.F (k + 1)) fuel = .ok T ∧ 2 ^ k ≤ height T.data.root + 1 := by
  constructor
  · intro i hi i' hi' hne heq
    apply hne
    apply Nat.eq_of_testBit_eq
    intro b
    by_cases hb : b < k + 1
    · have := congrFun heq ⟨b, hb⟩
      have h01 : int32.ofInt 0 ≠ int32.ofInt 1 := by decide +kernel
      simp only [cube] at this
      cases h1 : i.testBit b <;> cases h2 : i'.testBit b <;> simp_all
    · have hp : 2 ^ (k + 1) ≤ 2 ^ b := Nat.pow_le_pow_right (by decide) (by omega)
      rw [Nat.testBit_lt_two_pow (by omega), Nat.testBit_lt_two_pow (by omega)]
  · obtain ⟨fuel, T, hT⟩ := c22_terminates_partial (n := 2 ^ (k + 1)) (N := int32.num) (pts := cube k)
      (o := Ref.optsSliding int32.F (k + 1)) (euclideanTag int32.F (k + 1)) (metricL2Sq int32.F (k + 1))
      splitSafe_cube (by omega) (by positivity) (by simp [Ref.optsSliding])
      (by intro m hm; simp only [Ref.optsSliding, Stop.maxLeafSize.injEq] at hm; subst hm
          exact ⟨le_rfl, by norm_num [Ref.optsSliding]⟩)
      (fun i _ j => cube_bounds k i j) (by decide +kernel) (by simp [Ref.optsSliding])
    refine ⟨fuel, T, hT fuel le_rfl, ?_⟩
    obtain ⟨hm, h0⟩ := maxSide_cube k
    have := c124_stuck (hT fuel le_rfl) (m := 1) rfl rfl le_rfl (by norm_num [Ref.optsSliding]) hm h0
      (by decide +kernel) (fun i _ => (cube_bounds k i 0).1) (low := (List.range (2 ^ k)).map (2 * ·))
      (List.nodup_range.map (fun a b h => by simpa using h))
      (by
        intro i hi
        obtain ⟨a, ha, rfl⟩ := List.mem_map.1 hi
        rw [List.mem_range] at ha
        refine ⟨by rw [pow_succ]; omega, ?_⟩
        simp [cube])
    simpa using this

/-- A sliver in the plane, with `float` coordinates: one point at `(1 + 2^-23, 0)`, the others at `(1, i 2^-50)`. -/
def sliver (i : Nat) : Pt F32 2 :=
  if i = 0 then ![(ieee 23 (-149)).ofK (1 + 1 / 2 ^ 23), 0] else ![1, (ieee 23 (-149)).ofK (i * 2 ^ (-50 : ℤ))]

theorem sliver_exact {i : Nat} (hi : i ≤ 2 ^ 20) : (sliver i 1).1 = i * 2 ^ (-50 : ℤ) := by
  unfold sliver
  split_ifs with h
  · subst h
    decide +kernel
  · have := ieee_exactUpTo 23 (-149) (k := -50) (by decide) (i : ℤ) (by
      rw [abs_of_nonneg (by positivity)]
      have h2 : ((2 ^ (23 + 1) : ℕ) : ℤ) = 2 ^ 24 := by norm_num
      norm_num
      omega)
    exact this

theorem sliver_zero (i : Nat) : sliver i 0 = if i = 0 then (ieee 23 (-149)).ofK (1 + 1 / 2 ^ 23) else 1 := by
  unfold sliver
  split_ifs <;> rfl

theorem sliver_bounds {i : Nat} (hi : i ≤ 2 ^ 20) :
    (1 ≤ (sliver i 0).1 ∧ (sliver i 0).1 ≤ 1 + 1 / 2 ^ 23) ∧ 0 ≤ (sliver i 1).1 ∧ (sliver i 1).1 ≤ 1 / 2 ^ 30 := by
  refine ⟨?_, ?_⟩
  · rw [sliver_zero]
    split_ifs <;> exact ⟨by decide +kernel, by decide +kernel⟩
  · rw [sliver_exact hi]
    have : (i : ℚ) ≤ ((2 ^ 20 : ℕ) : ℚ) := by exact_mod_cast hi
    refine ⟨by positivity, ?_⟩
    rw [Nat.cast_pow, Nat.cast_two] at this
    refine (mul_le_mul_of_nonneg_right this (by positivity)).trans ?_
    norm_num

/-- C124 is false for `float`: `n` different points in the plane, no two of them closer than `2^-50`, in a box with
sides of `2^-23`.  The sliding midpoint rule builds a tree of at least `n - 2` levels (the claim would be `56`). -/
theorem c124_float_false {n : Nat} (hn : 2 ≤ n) (hn' : n ≤ 2 ^ 20) :
    (∀ i < n, ∀ k < n, i ≠ k → ∃ j, 1 / 2 ^ 50 ≤ |(sliver i j).1 - (sliver k j).1|) ∧
    (∀ i < n, ∀ k < n, ∀ j, |(sliver i j).1 - (sliver k j).1| ≤ 1 / 2 ^ 23) ∧
    ∃ fuel T, KdTree.make (euclideanTag F32 2) (metricL2Sq F32 2) f32Num sliver n (Ref.optsSliding F32 2) fuel = .ok T ∧
      n ≤ height T.data.root + 2 := by
  refine ⟨?_, ?_, ?_⟩
  · intro i hi k hk hne
    refine ⟨1, ?_⟩
    rw [sliver_exact (by omega), sliver_exact (by omega), ← sub_mul, abs_mul]
    have h1 : (1 : ℚ) ≤ |(i : ℚ) - k| := by
      have : (1 : ℤ) ≤ |(i : ℤ) - k| := Int.one_le_abs (by omega)
      exact_mod_cast this
    norm_num
    linarith
  · intro i hi k hk j
    obtain ⟨⟨a1, a2⟩, a3, a4⟩ := sliver_bounds (i := i) (by omega)
    obtain ⟨⟨b1, b2⟩, b3, b4⟩ := sliver_bounds (i := k) (by omega)
    rw [abs_le]
    fin_cases j
    · exact ⟨by show _ ≤ (sliver i 0).1 - (sliver k 0).1; linarith,
        by show (sliver i 0).1 - (sliver k 0).1 ≤ _; linarith⟩
    · norm_num at a4 b4 ⊢
      exact ⟨by linarith, by linarith⟩
  · have hb : ∀ i < n, ∀ j, (0 : F32) ≤ sliver i j ∧ sliver i j ≤ f32 2 := by
      intro i hi j
      obtain ⟨⟨a1, a2⟩, a3, a4⟩ := sliver_bounds (i := i) (by omega)
      have e2 : (f32 2).1 = 2 := by decide +kernel
      rw [Rounding.le_iff, Rounding.le_iff, Rounding.val_zero, e2]
      norm_num at a2 a4
      fin_cases j
      · exact ⟨by show 0 ≤ (sliver i 0).1; linarith, by show (sliver i 0).1 ≤ 2; linarith⟩
      · exact ⟨a3, by show (sliver i 1).1 ≤ 2; linarith⟩
    obtain ⟨fuel, T, hT⟩ := c22_terminates_partial (n := n) (N := f32Num) (pts := sliver)
      (o := Ref.optsSliding F32 2) (euclideanTag F32 2) (metricL2Sq F32 2) (a := 0) (b := f32 2)
      (splitSafe_rounding (ieee 23 (-149)) (by decide +kernel)) (by decide) (by omega) (by simp [Ref.optsSliding])
      (by intro m hm; simp only [Ref.optsSliding, Stop.maxLeafSize.injEq] at hm; subst hm
          exact ⟨le_rfl, by norm_num [Ref.optsSliding]⟩)
      hb (by decide +kernel) (by simp [Ref.optsSliding])
    refine ⟨fuel, T, hT fuel le_rfl, ?_⟩
    have hmem := boxFromBounds_fromSpace_mem f32Num sliver n
    have m0 : (boxFromBounds f32Num sliver n .fromSpace).min 0 = 1 := by
      apply le_antisymm
      · exact (hmem 1 (by omega) 0).1
      · refine (foldl_fitPt_min _ _ _ 0 _).2 ⟨(by decide +kernel : (1 : F32) ≤ f32Num.big), fun i hi => ?_⟩
        have := (sliver_bounds (i := i) (by have := List.mem_range.1 hi; omega)).1.1
        rw [Rounding.le_iff]
        exact le_trans (by decide +kernel) this
    have x0 : (boxFromBounds f32Num sliver n .fromSpace).max 0 = (ieee 23 (-149)).ofK (1 + 1 / 2 ^ 23) := by
      apply le_antisymm
      · refine (foldl_fitPt_max _ _ _ 0 _).2 ⟨(by decide +kernel : f32Num.low ≤ _), fun i hi => ?_⟩
        have := (sliver_bounds (i := i) (by have := List.mem_range.1 hi; omega)).1.2
        rw [Rounding.le_iff]
        exact le_trans this (by decide +kernel)
      · exact (hmem 0 (by omega) 0).2
    have m1 : 0 ≤ (boxFromBounds f32Num sliver n .fromSpace).min 1 := by
      refine (foldl_fitPt_min _ _ _ 1 _).2 ⟨(by decide +kernel : (0 : F32) ≤ f32Num.big), fun i hi => ?_⟩
      exact (hb i (List.mem_range.1 hi) 1).1
    have x1 : (boxFromBounds f32Num sliver n .fromSpace).max 1 ≤ (ieee 23 (-149)).ofK (1 / 2 ^ 30) := by
      refine (foldl_fitPt_max _ _ _ 1 _).2 ⟨(by decide +kernel : f32Num.low ≤ _), fun i hi => ?_⟩
      have := (sliver_bounds (i := i) (by have := List.mem_range.1 hi; omega)).2.2
      rw [Rounding.le_iff]
      exact le_trans this (by decide +kernel)
    have hm : (boxFromBounds f32Num sliver n .fromSpace).maxSide f32Num =
        (some 0, (ieee 23 (-149)).ofK (1 / 2 ^ 23)) := by
      rcases hm : (boxFromBounds f32Num sliver n .fromSpace).maxSide f32Num with ⟨dim, delta⟩
      cases dim with
      | none =>
        have := maxSide_none (by rw [hm]) 0
        rw [m0, x0] at this
        exact absurd this (by decide +kernel)
      | some dim =>
        obtain ⟨h1, _, _, h4⟩ := maxSide_some hm
        have : dim = 0 := by
          by_contra hne
          have hd1 : dim = 1 := by omega
          have h0 := h4 0
          rw [h1, hd1, m0, x0] at h0
          have h2 : (boxFromBounds f32Num sliver n .fromSpace).max 1 - (boxFromBounds f32Num sliver n .fromSpace).min 1 ≤
              (ieee 23 (-149)).ofK (1 / 2 ^ 30) - 0 := Rounding.sub_mono m1 x1
          exact absurd (h0.trans h2) (by decide +kernel)
        rw [this] at h1 ⊢
        rw [m0, x0] at h1
        rw [h1]
        decide +kernel
    have := c124_stuck (hT fuel le_rfl) (m := 1) rfl rfl le_rfl (by norm_num [Ref.optsSliding]) hm m0
      (by decide +kernel) (fun i hi => by
        have := (sliver_bounds (i := i) (by omega)).1.1
        rw [Rounding.le_iff]
        exact le_trans (by decide +kernel) this) (low := (List.range (n - 1)).map (· + 1))
      (List.nodup_range.map (fun a b h => by simpa using h))
      (by
        intro i hi
        obtain ⟨a, ha, rfl⟩ := List.mem_map.1 hi
        rw [List.mem_range] at ha
        refine ⟨by omega, ?_⟩
        rw [sliver_zero, if_neg (by omega)])
    rw [List.length_map, List.length_range] at this
    omega

/-! ## Examples -/

/-- Four points one apart in a box with sides of `7 < 2^3`, leaves of one point: at most `2 * 3` levels. -/
def spread4 : Nat → Pt Rat 2
  | 0 => ![0, 0]
  | 1 => ![1, 0]
  | 2 => ![7, 5]
  | _ => ![7, 6]

example : ∃ T, KdTree.make (euclideanTag Rat 2) (metricL2Sq Rat 2) Ref.ratNum spread4 4
    (Ref.optsSliding Rat 2) 10 = .ok T ∧ height T.data.root ≤ 2 * 3 := by
  obtain ⟨T, h, -⟩ := Outcome.exists_of_check (x := KdTree.make (euclideanTag Rat 2) (metricL2Sq Rat 2) Ref.ratNum
    spread4 4 (Ref.optsSliding Rat 2) 10) (p := fun _ => true) (by decide +kernel)
  refine ⟨T, h, (c124_space_partial h (m := 1) (by simp [Ref.optsSliding]) rfl le_rfl
    (by norm_num [Ref.optsSliding]) rfl (fun x => by simp only [Ref.ratNum]; ring) (fun x => rfl) (s := 1) one_pos
    (by decide +kernel) ?_ 3 (a := ![0, 0]) (b := ![7, 6]) (by decide +kernel) (by decide +kernel)
    (by decide +kernel)).1⟩
  intro p
  have h : List.range 4 = [0, 1, 2, 3] := rfl
  have hd : ∀ i < 4, ∀ k < 4, i ≠ k → spread4 i ≠ spread4 k := by decide +kernel
  have h01 := hd 0 (by decide) 1 (by decide) (by decide)
  have h02 := hd 0 (by decide) 2 (by decide) (by decide)
  have h03 := hd 0 (by decide) 3 (by decide) (by decide)
  have h12 := hd 1 (by decide) 2 (by decide) (by decide)
  have h13 := hd 1 (by decide) 3 (by decide) (by decide)
  have h23 := hd 2 (by decide) 3 (by decide) (by decide)
  rw [h]
  simp only [List.countP_cons, List.countP_nil, decide_eq_true_eq]
  split_ifs <;> simp_all

/-- The hypotheses of `c124_ieee_partial`: three `float` points on a line, two of them `2^-19` apart. -/
example : ∃ T, KdTree.make (euclideanTag F32 1) (metricL2Sq F32 1) f32Num nearOne 3 (Ref.optsSliding F32 1) 10 = .ok T ∧
    height T.data.root ≤ 1 * (4 * 23) := by
  obtain ⟨T, h, -⟩ := Outcome.exists_of_check (x := KdTree.make (euclideanTag F32 1) (metricL2Sq F32 1) f32Num
    nearOne 3 (Ref.optsSliding F32 1) 10) (p := fun _ => true) (by decide +kernel)
  refine ⟨T, h, (c124_ieee_partial h (m := 1) (B := f32 2) (G := (ieee 23 (-149)).ofK (1 / 2 ^ 19))
    (by simp [Ref.optsSliding]) (by decide) rfl le_rfl (by norm_num [Ref.optsSliding]) (by decide) rfl
    (by decide +kernel) (by decide +kernel) (by decide +kernel) (by decide +kernel) (by decide +kernel)
    (by decide +kernel) ?_).1⟩
  intro p
  have h : List.range 3 = [0, 1, 2] := rfl
  have h01 : nearOne 0 ≠ nearOne 1 := by decide +kernel
  have h02 : nearOne 0 ≠ nearOne 2 := by decide +kernel
  have h12 : nearOne 1 ≠ nearOne 2 := by decide +kernel
  rw [h]
  simp only [List.countP_cons, List.countP_nil, decide_eq_true_eq]
  split_ifs with h1 h2 h3 h4 h5 h6 <;> simp_all

/-- Three points with `int` coordinates, at least two apart. -/
def ints3 : Nat → Pt int32.F 2
  | 0 => ![int32.ofInt 0, int32.ofInt 1]
  | 1 => ![int32.ofInt 0, int32.ofInt 3]
  | _ => ![int32.ofInt (-5), int32.ofInt 3]

example : ∃ T, KdTree.make (euclideanTag int32.F 2) (metricL2Sq int32.F 2) int32.num ints3 3
    (Ref.optsSliding int32.F 2) 10 = .ok T ∧ height T.data.root ≤ 2 * 4 := by
  obtain ⟨T, h, -⟩ := Outcome.exists_of_check (x := KdTree.make (euclideanTag int32.F 2) (metricL2Sq int32.F 2)
    int32.num ints3 3 (Ref.optsSliding int32.F 2) 10) (p := fun _ => true) (by decide +kernel)
  refine ⟨T, h, (c124_int_partial h (m := 1) (B := 5) rfl rfl le_rfl (by norm_num [Ref.optsSliding]) (by decide) rfl
    (by decide +kernel) (by decide +kernel) (by decide) (by decide +kernel) (by decide +kernel) ?_ 4
    (by norm_num)).1⟩
  intro p
  have h : List.range 3 = [0, 1, 2] := rfl
  have h01 : ints3 0 ≠ ints3 1 := by decide +kernel
  have h02 : ints3 0 ≠ ints3 2 := by decide +kernel
  have h12 : ints3 1 ≠ ints3 2 := by decide +kernel
  rw [h]
  simp only [List.countP_cons, List.countP_nil, decide_eq_true_eq]
  split_ifs with h1 h2 h3 h4 h5 h6 <;> simp_all

end Pico.Props
