import Verif.Proof.Forest
import Verif.Proof.Exact
import Verif.SpecForest
import Mathlib.Tactic.Ring
import Mathlib.Data.List.Forall2

/-! # The forest: rotations and the search over all trees -/

set_option linter.unusedSectionVars false

namespace Pico

open Spec

section Rotation
variable {α : Type} [CommRing α] [LinearOrder α] [IsStrictOrderedRing α] {d : Nat}

theorem rotatePoint_eq (r x : Pt α d) (i : Fin d) :
    rotatePoint r x i = x i - (∑ j, r j * x j) * 2 * r i := by
  unfold rotatePoint
  rw [loopSum_eq, one_add_one_eq_two]

theorem rotatePoint_sub (r x y : Pt α d) (i : Fin d) :
    rotatePoint r x i - rotatePoint r y i = (x i - y i) - (∑ j, r j * (x j - y j)) * 2 * r i := by
  rw [rotatePoint_eq, rotatePoint_eq]
  simp only [mul_sub, Finset.sum_sub_distrib]
  ring

theorem sum_reflect (r x : Pt α d) (hr : ∑ j, r j * r j = 1) :
    ∑ i, (x i - (∑ j, r j * x j) * 2 * r i) * (x i - (∑ j, r j * x j) * 2 * r i) = ∑ i, x i * x i := by
  set c := ∑ j, r j * x j with hc
  have e : ∀ i, (x i - c * 2 * r i) * (x i - c * 2 * r i) =
      x i * x i - 4 * c * (r i * x i) + 4 * (c * c) * (r i * r i) := fun i => by ring
  simp only [e, Finset.sum_add_distrib, Finset.sum_sub_distrib, ← Finset.mul_sum]
  rw [hr, ← hc]
  ring

end Rotation

theorem forall₂_right {τ υ : Type} {R : τ → υ → Prop} {l : List τ} {m : List υ} (h : List.Forall₂ R l m) {y : υ}
    (hy : y ∈ m) : ∃ x ∈ l, R x y := by
  induction h with
  | nil => simp at hy
  | cons hr _ ih =>
    rcases List.mem_cons.1 hy with rfl | hy
    · exact ⟨_, by simp, hr⟩
    · obtain ⟨x, hx, hr⟩ := ih hy
      exact ⟨x, by simp [hx], hr⟩

theorem forall₂_left {τ υ : Type} {R : τ → υ → Prop} {l : List τ} {m : List υ} (h : List.Forall₂ R l m) {x : τ}
    (hx : x ∈ l) : ∃ y ∈ m, R x y :=
  forall₂_right h.flip hx

theorem slice_ne_nil {τ : Type} {l : List τ} {a b : Nat} (h1 : a < b) (h2 : b ≤ l.length) : slice l a b ≠ [] := by
  intro h
  have := congrArg List.length h
  simp [slice] at this
  omega

theorem tiles_mem_le {a b : Nat} {l : List (Nat × Nat)} (h : Tiles a l b) : ∀ r ∈ l, r.2 ≤ b := by
  induction l generalizing a with
  | nil => simp
  | cons x l ih =>
    obtain ⟨x, y⟩ := x
    obtain ⟨h3, h4, h5⟩ := h
    intro r hr
    rcases List.mem_cons.1 hr with rfl | hr
    · exact tiles_le h5
    · exact ih h5 r hr

section Generic
variable {α : Type} [LinearOrder α] [Zero α] [One α] [Add α] [Sub α] [Mul α] {d : Nat} {σ : Type}

theorem visitAll_congr (V : Visitor α σ) {f g : Nat → α} {l : List Nat} (h : ∀ i ∈ l, f i = g i) (s : σ) :
    visitAll V f l s = visitAll V g l s := by
  induction l generalizing s with
  | nil => rfl
  | cons a l ih =>
    have e := h a (by simp)
    show visitAll V f l (V.visit s a (f a)) = visitAll V g l (V.visit s a (g a))
    rw [e]
    exact ih (fun i hi => h i (by simp [hi])) _

/-- A finished construction of one tree. -/
theorem Forest.makeTree_ok {S : Std} {N : Num α} {pts : Nat → Pt α d} {n indexBits maxLeafSize fuel : Nat}
    {r : Pt α d} {t : RotTree α d} (h : Forest.makeTree S N pts n indexBits maxLeafSize fuel r = .ok t) :
    t.rotation = r ∧ t.pts = (fun i => rotatePoint r (pts i)) ∧
      buildTree (⟨fun i => rotatePoint r (pts i), S, N, .sliding, .maxLeafSize maxLeafSize, indexBits,
        setBranchTopological⟩ : BuildCfg α d (Branch2 α d)) n .fromSpace fuel = .ok t.data := by
  unfold Forest.makeTree Forest.opts at h
  dsimp only at h
  cases hb : buildTree (⟨fun i => rotatePoint r (pts i), S, N, .sliding, .maxLeafSize maxLeafSize, indexBits,
        setBranchTopological⟩ : BuildCfg α d (Branch2 α d)) n .fromSpace fuel with
  | ub => rw [hb] at h; simp [Outcome.bind] at h
  | oof => rw [hb] at h; simp [Outcome.bind] at h
  | ok x =>
    rw [hb] at h
    simp only [Outcome.bind, Outcome.ok.injEq] at h
    subst h
    exact ⟨rfl, rfl, rfl⟩

/-- What every finished construction of a tree gives, for any arithmetic. -/
structure TreeShape (n : Nat) (t : RotTree α d) : Prop where
  perm : t.data.indices.Perm (List.range n)
  elems : t.data.root.elems t.data.indices = t.data.indices
  lt : ∀ i ∈ t.data.root.elems t.data.indices, i < n
  nonempty : ∀ r ∈ ranges t.data.root, r.1 < r.2
  le : ∀ r ∈ ranges t.data.root, r.2 ≤ t.data.indices.length
  leaves : (ranges t.data.root).length ≤ n
  tiles : Tiles 0 (ranges t.data.root) n

theorem Forest.makeTree_shape {S : Std} {N : Num α} {pts : Nat → Pt α d} {n indexBits maxLeafSize fuel : Nat}
    {r : Pt α d} {t : RotTree α d} (hm : 1 ≤ maxLeafSize ∧ maxLeafSize < 2 ^ (indexBits - 1)) (hn : 0 < n)
    (h : Forest.makeTree S N pts n indexBits maxLeafSize fuel r = .ok t) : TreeShape n t := by
  obtain ⟨-, -, hb⟩ := Forest.makeTree_ok h
  obtain ⟨-, box, hc⟩ := buildTree_created hb
  have hne := hc.nonempty (by simp) (stopOk_of (by
    intro m hm'
    injection hm' with hm'
    subst hm'
    exact hm)) (by simpa using hn)
  have ht := hc.tiles
  rw [List.length_range, Nat.zero_add] at ht
  have hlen := hc.perm.length_eq
  rw [List.length_range] at hlen
  have hel : t.data.root.elems t.data.indices = t.data.indices := by
    rw [Tree.elems_eq_ranges, tiles_flatMap ht]
    simp [slice, ← hlen]
  refine ⟨hc.perm, hel, ?_, hne, fun r hr => hlen ▸ tiles_mem_le ht r hr, by simpa using tiles_length ht hne, ht⟩
  intro i hi
  rw [hel] at hi
  exact List.mem_range.1 (hc.perm.subset hi)

theorem TreeShape.nodup {n maxLeaves : Nat} {t : RotTree α d} (hs : TreeShape n t) {vs : List Nat}
    (h : LeafVisits maxLeaves (ranges t.data.root) t.data.indices vs) : vs.Nodup := by
  obtain ⟨Ls, hL, -, rfl⟩ := h
  have hsub : (Ls.flatMap fun x => (t.data.indices.drop x.1).take (x.2 - x.1)).Subperm t.data.indices := by
    have : ((ranges t.data.root).flatMap fun x => slice t.data.indices x.1 x.2) = t.data.indices := by
      rw [← Tree.elems_eq_ranges, hs.elems]
    conv_rhs => rw [← this]
    obtain ⟨l, hp, hl⟩ := hL
    exact ((hp.flatMap_right _).subperm_right).1 (hl.flatMap _).subperm
  obtain ⟨l, hp, hl⟩ := hsub
  exact hp.nodup_iff.1 (hl.nodup (hs.perm.nodup_iff.2 List.nodup_range))

/-- A finished construction: one tree for each rotation. -/
theorem Forest.make_ok {M : Metric α d} {S : Std} {N : Num α} {pts : Nat → Pt α d}
    {n indexBits maxLeafSize fuel : Nat} {rotations : List (Pt α d)} {F : Forest α d}
    (h : Forest.make M S N pts n indexBits maxLeafSize fuel rotations = .ok F) :
    F.metric = M ∧ F.num = N ∧
      List.Forall₂ (fun r t => Forest.makeTree S N pts n indexBits maxLeafSize fuel r = .ok t) rotations F.trees := by
  have key : ∀ (rs : List (Pt α d)) (ts out : List (RotTree α d)),
      Outcome.foldl (fun trees r => (Forest.makeTree S N pts n indexBits maxLeafSize fuel r).bind fun t =>
        .ok (trees ++ [t])) ts rs = .ok out →
      ∃ ts', out = ts ++ ts' ∧
        List.Forall₂ (fun r t => Forest.makeTree S N pts n indexBits maxLeafSize fuel r = .ok t) rs ts' := by
    intro rs
    induction rs with
    | nil =>
      intro ts out h
      simp only [Outcome.foldl, Outcome.ok.injEq] at h
      exact ⟨[], by simp [h], .nil⟩
    | cons r rs ih =>
      intro ts out h
      rw [Outcome.foldl] at h
      cases hb : Forest.makeTree S N pts n indexBits maxLeafSize fuel r with
      | ub => rw [hb] at h; simp [Outcome.bind] at h
      | oof => rw [hb] at h; simp [Outcome.bind] at h
      | ok t =>
        rw [hb] at h
        simp only [Outcome.bind] at h
        obtain ⟨ts', h1, h2⟩ := ih _ _ h
        exact ⟨t :: ts', by simp [h1], .cons hb h2⟩
  unfold Forest.make at h
  cases hb : Outcome.foldl (fun trees r => (Forest.makeTree S N pts n indexBits maxLeafSize fuel r).bind fun t =>
        .ok (trees ++ [t])) [] rotations with
  | ub => rw [hb] at h; simp [Outcome.bind] at h
  | oof => rw [hb] at h; simp [Outcome.bind] at h
  | ok ts =>
    rw [hb] at h
    simp only [Outcome.bind, Outcome.ok.injEq] at h
    subst h
    obtain ⟨ts', h1, h2⟩ := key _ _ _ hb
    simp only [List.nil_append] at h1
    exact ⟨rfl, rfl, by rw [h1]; exact h2⟩

/-- What holds for the search on one tree, with `D` the distances of the points. -/
def TreeSearch (Q : StdQueue α (Tree (Branch2 α d))) (M : Metric α d) (n : Nat) (D : Nat → α)
    (x : Pt α d) (maxLeaves fuel : Nat) (V : Visitor α σ) (Inv : σ → Prop) (Out : RotTree α d → σ → List Nat → Prop)
    (t : RotTree α d) : Prop :=
  ∀ s, Inv s → ∃ vs, prioritySearch Q M (rotatePoint t.rotation x) V
      (fun i => M.dist (rotatePoint t.rotation x) (t.pts i)) t.data.indices maxLeaves fuel t.data.root s =
      .ok (visitAll V D vs s) ∧
    LeafVisits maxLeaves (ranges t.data.root) t.data.indices vs ∧ (∀ i ∈ vs, i < n) ∧ Out t s vs

theorem Forest.search_all {Q : Nat → StdQueue α (Tree (Branch2 α d))} {M : Metric α d} {n : Nat} {D : Nat → α}
    {x : Pt α d} {maxLeaves fuel : Nat} {V : Visitor α σ} {Inv : σ → Prop}
    (hV : Shrinks V D (· < n) Inv) {Out : RotTree α d → σ → List Nat → Prop} {F : Forest α d} (hm : F.metric = M)
    (h : ∀ t ∈ F.trees, ∀ j, TreeSearch (Q j) M n D x maxLeaves fuel V Inv Out t) (s : σ) (hs : Inv s) :
    ∃ vss, F.searchNearest Q fuel x maxLeaves V s = .ok (visitAll V D vss.flatten s) ∧
      List.Forall₂ (fun t vs => LeafVisits maxLeaves (ranges t.data.root) t.data.indices vs) F.trees vss ∧ (∀ i ∈ vss.flatten, i < n) ∧
      ∀ k (hk : k < F.trees.length) (hk' : k < vss.length),
        Out F.trees[k] (visitAll V D (vss.take k).flatten s) vss[k] := by
  unfold Forest.searchNearest
  rw [hm]
  dsimp only
  generalize F.trees = ts at h ⊢
  rw [show ts.zipIdx = ts.zipIdx (id 0) from rfl]
  generalize id 0 = j₀
  induction ts generalizing s j₀ with
  | nil => exact ⟨[], rfl, .nil, by simp, by simp⟩
  | cons t ts ih =>
    obtain ⟨vs, h1, h2, h3, h4⟩ := h t (by simp) j₀ s hs
    obtain ⟨vss, g1, g2, g3, g4⟩ := ih (visitAll V D vs s)
      (hV.visitAll vs h3 s hs).1 (fun t ht => h t (by simp [ht])) (j₀ + 1)
    refine ⟨vs :: vss, ?_, .cons h2 g2, ?_, ?_⟩
    · rw [List.zipIdx_cons, Outcome.foldl, h1]
      simp only [Outcome.bind]
      rw [g1, List.flatten_cons, visitAll_append]
    · intro i hi
      rw [List.flatten_cons] at hi
      rcases List.mem_append.1 hi with hi | hi
      exacts [h3 i hi, g3 i hi]
    · intro k hk hk'
      cases k with
      | zero => simpa [visitAll] using h4
      | succ k =>
        have := g4 k (by simpa using hk) (by simpa using hk')
        simpa [visitAll_append] using this

/-- For any arithmetic: the search on a tree presents the points of distinct leaves, at most `maxLeaves`. -/
theorem prioritySearch_budget {Q : StdQueue α (Tree (Branch2 α d))} {M : Metric α d} {n : Nat} {x : Pt α d}
    {maxLeaves fuel : Nat} {V : Visitor α σ} {Inv : σ → Prop} {t : RotTree α d}
    {D : Nat → α} (hD : ∀ i < n, M.dist (rotatePoint t.rotation x) (t.pts i) = D i)
    (hV : Shrinks V D (· < n) Inv)
    (hn : ∀ i ∈ t.data.root.elems t.data.indices, i < n) (hf : (ranges t.data.root).length < fuel) :
    TreeSearch Q M n D x maxLeaves fuel V Inv (fun _ _ _ => True) t := by
  intro s hs
  have hV' : Shrinks V (fun i => M.dist (rotatePoint t.rotation x) (t.pts i)) (· < n) Inv := by
    intro s i hi hs
    have := hV s i hi hs
    rw [← hD i hi] at this
    exact this
  obtain ⟨u, Ls, Sk, Un, h1, h2, h3, h4, h5, h6, h7⟩ := priorityLoop_spec M (rotatePoint t.rotation x) V
    (fun i => M.dist (rotatePoint t.rotation x) (t.pts i)) t.data.indices (fun _ _ => True) (fun _ _ => True)
    (fun _ _ _ _ _ => trivial) (fun _ _ _ _ _ => ⟨trivial, trivial⟩) Q maxLeaves (· < n) Inv hV' fuel 0 s
    [(0, t.data.root)] (by simp) (by simpa using hn) hs (by simpa using hf)
  simp only [List.flatMap_cons, List.flatMap_nil, List.append_nil] at h3
  have hsub : Ls.Subperm (ranges t.data.root) := h3.subperm_left.1 (List.sublist_append_left _ _).subperm
  have hlt : ∀ i ∈ Ls.flatMap fun x => slice t.data.indices x.1 x.2, i < n := by
    intro i hi
    obtain ⟨z, hz, hi⟩ := List.mem_flatMap.1 hi
    exact hn i (Tree.mem_elems (hsub.subset hz) hi)
  refine ⟨Ls.flatMap fun x => slice t.data.indices x.1 x.2, ?_, ⟨Ls, hsub, by simpa using h5, rfl⟩, hlt, trivial⟩
  rw [prioritySearch, h1, h2]
  exact congrArg _ (visitAll_congr V (fun i hi => hD i (hlt i hi)) s)

/-- A search on a tree with any bounds: points that are not presented are at least as far away as the final
`max()`, as far as the bounds `Low` tell, when the budget suffices; one leaf is visited at least, when the first is
in reach. -/
theorem prioritySearch_low {Q : StdQueue α (Tree (Branch2 α d))} {M : Metric α d} {n : Nat} {x : Pt α d}
    {maxLeaves fuel : Nat} {V : Visitor α σ} {Inv : σ → Prop} {t : RotTree α d} {D : Nat → α}
    (hD : ∀ i < n, M.dist (rotatePoint t.rotation x) (t.pts i) = D i) (hV : Shrinks V D (· < n) Inv)
    (Ok : α → Tree (Branch2 α d) → Prop) (Low : α → Nat → Prop)
    (hlow : ∀ D t', Ok D t' → ∀ i ∈ t'.elems t.data.indices, Low D i)
    (hbranch : ∀ D data l r, Ok D (.branch data l r) →
      let p := pickPriority M (rotatePoint t.rotation x) data
      Ok D (if p.1 then l else r) ∧ Ok (D - p.2.1 + p.2.2) (if p.1 then r else l))
    (hroot : Ok 0 t.data.root) (hel : t.data.root.elems t.data.indices = t.data.indices)
    (hne : ∀ r ∈ ranges t.data.root, r.1 < r.2) (hle : ∀ r ∈ ranges t.data.root, r.2 ≤ t.data.indices.length)
    (hperm : t.data.indices.Perm (List.range n)) (hf : (ranges t.data.root).length < fuel) :
    TreeSearch Q M n D x maxLeaves fuel V Inv (fun t s vs =>
      ((ranges t.data.root).length ≤ maxLeaves →
        ∀ i < n, i ∈ vs ∨ ∃ D', Low D' i ∧ V.max (visitAll V D vs s) ≤ D') ∧
      (0 < maxLeaves → 0 ≤ V.max s → vs ≠ [])) t := by
  intro s hs
  have hn : ∀ i ∈ t.data.root.elems t.data.indices, i < n := by
    intro i hi
    rw [hel] at hi
    exact List.mem_range.1 (hperm.subset hi)
  have hV' : Shrinks V (fun i => M.dist (rotatePoint t.rotation x) (t.pts i)) (· < n) Inv := by
    intro s i hi hs
    have := hV s i hi hs
    rw [← hD i hi] at this
    exact this
  obtain ⟨u, Ls, Sk, Un, h1, h2, h3, h4, h5, h6, h7⟩ := priorityLoop_spec M (rotatePoint t.rotation x) V
    (fun i => M.dist (rotatePoint t.rotation x) (t.pts i)) t.data.indices Ok Low hlow hbranch Q maxLeaves (· < n)
    Inv hV' fuel 0 s [(0, t.data.root)]
    (by
      intro p hp
      rw [List.mem_singleton] at hp
      subst hp
      exact hroot)
    (by simpa using hn) hs (by simpa using hf)
  simp only [List.flatMap_cons, List.flatMap_nil, List.append_nil] at h3
  have hsub : Ls.Subperm (ranges t.data.root) := h3.subperm_left.1 (List.sublist_append_left _ _).subperm
  have hlt : ∀ i ∈ Ls.flatMap fun x => slice t.data.indices x.1 x.2, i < n := by
    intro i hi
    obtain ⟨z, hz, hi⟩ := List.mem_flatMap.1 hi
    exact hn i (Tree.mem_elems (hsub.subset hz) hi)
  have hres : u = visitAll V D (Ls.flatMap fun x => slice t.data.indices x.1 x.2) s := by
    rw [h2]
    exact visitAll_congr V (fun i hi => hD i (hlt i hi)) s
  refine ⟨Ls.flatMap fun x => slice t.data.indices x.1 x.2, ?_, ⟨Ls, hsub, by simpa using h5, rfl⟩, hlt, ?_, ?_⟩
  · rw [prioritySearch, h1, hres]
  · intro hle i hi
    have hlen := h3.length_eq
    have hU : Un = [] := by
      by_contra hU
      have := h6 hU
      have := List.length_pos_iff.2 hU
      simp only [List.length_append] at hlen
      omega
    subst hU
    have hi' : i ∈ t.data.root.elems t.data.indices := by
      rw [hel]
      exact hperm.symm.subset (List.mem_range.2 hi)
    rw [Tree.elems_eq_ranges] at hi'
    obtain ⟨y, hy, hiy⟩ := List.mem_flatMap.1 hi'
    have hy := h3.symm.subset hy
    rw [List.append_nil] at hy
    rcases List.mem_append.1 hy with hy | hy
    · exact Or.inl (List.mem_flatMap.2 ⟨y, hy, hiy⟩)
    · rw [← hres]
      exact Or.inr (h4 y hy i hiy)
  · intro hp hs0 hnil
    have hL : Ls ≠ [] := by
      intro hL
      rcases h7 hL with h | h | ⟨p, hp, h⟩
      · exact absurd h (by simp)
      · omega
      · rw [List.mem_singleton] at hp
        subst hp
        exact absurd h (not_lt.2 hs0)
    obtain ⟨y, Ls', rfl⟩ := List.exists_cons_of_ne_nil hL
    have hy := hsub.subset (List.mem_cons_self (a := y) (l := Ls'))
    have hlty := hne y hy
    rw [List.flatMap_cons] at hnil
    exact slice_ne_nil hlty (hle y hy) (List.append_eq_nil_iff.1 hnil).1

end Generic

section Exact
variable {α : Type} [CommRing α] [LinearOrder α] [IsStrictOrderedRing α] {d : Nat} {σ : Type}

/-- Exact arithmetic: points that are not presented are at least as far away as the final `max()`, when the
budget suffices; one leaf is visited at least, when the first is in reach. -/
theorem prioritySearch_exact {Q : StdQueue α (Tree (Branch2 α d))} {M : Metric α d} (hM : EuclideanAdditive M)
    (h0 : M.one 0 = 0) {n : Nat} {x : Pt α d} {maxLeaves fuel : Nat} {V : Visitor α σ} {Inv : σ → Prop}
    {t : RotTree α d} {D : Nat → α} (hD : ∀ i < n, M.dist (rotatePoint t.rotation x) (t.pts i) = D i)
    (hV : Shrinks V D (· < n) Inv) {box : Box α d}
    (hB : Built t.pts setBranchTopological 0 t.data.root t.data.indices box)
    (hne : ∀ r ∈ ranges t.data.root, r.1 < r.2) (hle : ∀ r ∈ ranges t.data.root, r.2 ≤ t.data.indices.length)
    (hperm : t.data.indices.Perm (List.range n))
    (hf : (ranges t.data.root).length < fuel) :
    TreeSearch Q M n D x maxLeaves fuel V Inv (fun t s vs =>
      ((ranges t.data.root).length ≤ maxLeaves → ∀ i < n, i ∈ vs ∨ V.max (visitAll V D vs s) ≤ D i) ∧
      (0 < maxLeaves → 0 ≤ V.max s → vs ≠ [])) t := by
  have hel : t.data.root.elems t.data.indices = t.data.indices := by
    simpa using hB.elems_eq [] [] rfl
  intro s hs
  obtain ⟨vs, h1, h2, h3, h4, h5⟩ := prioritySearch_low (Q := Q) (maxLeaves := maxLeaves) (fuel := fuel) hD hV
    (QueueOk M (rotatePoint t.rotation x) t.pts t.data.indices)
    (fun D i => D ≤ M.dist (rotatePoint t.rotation x) (t.pts i))
    (fun _ _ h => h.low hM) (fun _ _ _ _ h => h.branch hM _ h0)
    ⟨0, t.data.indices, box, [], [], fun _ => 0, hB, rfl, by simp, hne, by simp, fun j => gap_nonneg hM _ _ _⟩
    hel hne hle hperm hf s hs
  refine ⟨vs, h1, h2, h3, fun hl i hi => ?_, h5⟩
  rcases h4 hl i hi with h | ⟨D', h, h'⟩
  · exact Or.inl h
  · rw [hD i hi] at h
    exact Or.inr (h'.trans h)

end Exact

end Pico
