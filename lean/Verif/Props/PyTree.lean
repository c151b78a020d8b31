import Verif.Proof.PyTree
import Verif.Props.Infinity

/-!
# C119: from arrays to arrays

A `KdTree` of an array of points, made by the constructor or loaded from a file, answers every call with the rows of the
array. `data t` is row `t`.
-/

set_option linter.unusedSectionVars false

namespace Pico.Props

open Pico Spec Pico.Bind

section
variable {α F : Type} [LinearOrder α] [Zero α] [One α] [Add α] [Sub α] [Neg α] [Mul α] [Div α]

/-- The tree was made from the array: by the constructor, or by loading a file that was saved from such a tree, with an
array that holds the same points. -/
inductive Made (E : PyEnv α F) (P : DType → Platform α) (m : PyMetric) (n d : Nat) : NArray α → PyTree α → Prop
  | make {a : NArray α} {leaf fuel : Nat} {T : PyTree α} (hv : Valid a) (hp : Points a n d)
      (h : PyTree.make E a m leaf fuel = .ok T) : Made E P m n d a T
  | load {a b : NArray α} {T T' : PyTree α} (hT : Made E P m n d a T) (hab : SamePoints a b n d)
      (hs : Storable E P a n d) (pad : Nat → Byte) (junk : Fin 3 → Nat → Byte) (rest : List Byte) (fuel : Nat)
      (hf : (T.save pad P ++ rest).length < fuel)
      (h : PyTree.load E P junk b fuel (T.save pad P ++ rest) = .ok T') : Made E P m n d b T'

variable {E : PyEnv α F} {P : DType → Platform α} {m : PyMetric} {a : NArray α} {n d : Nat} {T : PyTree α}

theorem over_of_made (h : Made E P m n d a T) : Over E m a n d T := by
  induction h with
  | make hv hp h => exact over_of_make hv hp h
  | load hT hab hs pad junk rest fuel hf h ih =>
    obtain ⟨T', h1, h2⟩ := load_of_save ih hab hs pad junk rest fuel hf
    rw [h1, Call.ok.injEq] at h
    exact h ▸ h2

/-- C119: the attributes of the tree are those of the array. -/
theorem c119_attributes (h : Made E P m n d a T) :
    T.sdim = d ∧ T.npts = n ∧ T.dtype = a.dtype ∧ T.metric = m ∧
      (a.dtype = .float32 ∨ a.dtype = .float64) :=
  let h := over_of_made h
  ⟨h.sdim, h.npts, h.dtype, h.metric, h.float⟩

/-- C119: a file saved from the tree of an array can be loaded with every array that holds the same points. -/
theorem c119_load (h : Made E P m n d a T) {b : NArray α} (hab : SamePoints a b n d) (hs : Storable E P a n d)
    (pad : Nat → Byte) (junk : Fin 3 → Nat → Byte) (rest : List Byte) (fuel : Nat)
    (hf : (T.save pad P ++ rest).length < fuel) :
    ∃ T', PyTree.load E P junk b fuel (T.save pad P ++ rest) = .ok T' ∧ Made E P m n d b T' := by
  obtain ⟨T', h1, -⟩ := load_of_save (over_of_made h) hab hs pad junk rest fuel hf
  exact ⟨T', h1, .load h hab hs pad junk rest fuel hf h1⟩

/-- C119: arrays of another type than `float32` and `float64` are refused. -/
theorem c119_dtype (h : a.dtype ≠ .float32 ∧ a.dtype ≠ .float64) (leaf fuel : Nat) :
    PyTree.make E a m leaf fuel = .throws := by
  unfold PyTree.make openSpace
  rw [if_neg (by rintro (g | g); exacts [h.1 g, h.2 g])]
  rfl

/-- C119: calls with missing arguments or with arguments of the wrong kind raise an exception, whatever the tree. -/
theorem c119_errors (x y : PyArr α) (c : PyCells α) (ta tn : Option Bool) (tx : Bool) (r : F) (tr : Bool) (k v : Int) :
    (T.callKnn E [.array x ta] [] = .throws ∧ T.callKnn E [.array x ta, .float r tr] [] = .throws ∧
      T.callKnn E [.array x ta, .int k, .int v] [] = .throws ∧
      T.callKnn E [.array x ta, .int k] [(.nns, .darray c tx)] = .throws) ∧
    (T.callRadius E [.array x ta] [] = .throws ∧ T.callRadius E [.array x ta, .int v] [] = .throws ∧
      T.callRadius E [.array x ta, .float r tr] [(.e, .int v)] = .throws ∧
      T.callRadius E [.array x ta, .float r tr] [(.nns, .array y tn)] = .throws) ∧
    (T.callBox (F := F) [] [] = .throws ∧ T.callBox (F := F) [.darray c tx] [] = .throws ∧
      T.callBox (F := F) [.array x ta, .array y tn] [] = .throws) :=
  ⟨⟨rfl, rfl, rfl, rfl⟩, ⟨rfl, rfl, rfl, rfl⟩, ⟨rfl, rfl, rfl⟩⟩

/-- C119: the constructor accepts every array of points (`[l, u]` is an interval as in `c22_terminates_partial`). -/
theorem c119_make (hv : Valid a) (hp : Points a n d) (hdt : a.dtype = .float32 ∨ a.dtype = .float64) {l u : α}
    (hS : SplitSafe (E.num a.dtype) l u) (hd : 0 < d) (hn : 0 < n) {leaf : Nat} (hl : 1 ≤ leaf) (hl' : leaf < 2 ^ 31)
    (hc : ∀ i < n, ∀ x : Fin d → α, IsPoint a i x → ∀ j, l ≤ x j ∧ x j ≤ u)
    (hN : (E.num a.dtype).low ≤ u ∧ l ≤ (E.num a.dtype).big) :
    ∃ fuel T, PyTree.make E a m leaf fuel = .ok T ∧ Made E P m n d a T := by
  obtain ⟨fuel, T, h⟩ := make_of_build (E := E) (m := m) (leaf := leaf) hv hp hdt fun f hf => by
    obtain ⟨fuel, t, ht⟩ := c22_terminates_partial (euclideanTag α d) (pyMetric d m) (N := E.num a.dtype) (pts := f)
      (n := n) (o := ⟨E.std, .sliding, .maxLeafSize leaf, .fromSpace, 32⟩) hS hd hn nofun
      (fun v hv => by cases hv; exact ⟨hl, hl'⟩) (fun i hi => hc i hi _ (hf i hi)) hN nofun
    exact ⟨fuel, t, ht fuel le_rfl⟩
  exact ⟨fuel, T, h, .make hv hp h⟩

end

section
variable {α τ : Type} {d : Nat} {Dim : Option Nat} {scalarT neighborT : DType} {zero : τ}
  {search : Pt α d → List τ → Outcome (List τ)} {pts : NArray α} {k q cap : Nat}

/-- `search_knn` into a new output, when every single search gives `k` results with the property `Q`. -/
theorem knn_rows (hv : Valid pts) (hp : Points pts q d) (hD : Dim = none ∨ Dim = some d) (hst : pts.dtype = scalarT)
    (hq : 0 < q) (hk : 0 < k) (hcap : q * k ≤ cap) (hcap' : cap < half64) (Q : Pt α d → List τ → Prop)
    (hs : ∀ x s, s.length = k → ∃ r, search x s = .ok r ∧ r.length = k)
    (hQ : ∀ i < q, ∀ x, IsPoint pts i x → ∀ s r, s.length = k → search x s = .ok r → Q x r) :
    ∃ out, pyKnnInto64 cap Dim scalarT neighborT zero search pts k (.default neighborT) = .ok out ∧
      out.dtype = neighborT ∧ out.shape = (if k = 1 then [q] else if pts.isC then [q, k] else [k, q]) ∧
      out.base = 0 ∧ out.buf.length = q * k ∧
      ∀ i < q, ∀ x, IsPoint pts i x → ∃ r, Q x r ∧ r.length = k ∧ (∀ j < k, out.buf[i * k + j]? = r[j]?) ∧
        (pts.isC = true → ∀ j < k, out.get (if k = 1 then [i] else [i, j]) = r[j]?) := by
  have hqk : q ≤ q * k := Nat.le_mul_of_pos_right q hk
  have hnn : (NArray.default neighborT : NArray τ).shape.prod < half64 := by
    have := half64_big
    simp only [NArray.default, List.prod_cons, List.prod_nil]
    omega
  have h64 := c118_same_partial (scalarT := scalarT) (neighborT := neighborT) (zero := zero) (search := search)
    (nns := .default neighborT) (k := k) hv hp hD hq hcap' (by omega) (by omega) hnn
  rw [if_neg (by omega)] at h64
  rw [h64]
  obtain ⟨nns, h1, h2, h3, h4, h5, -, h6⟩ := ensureSize_default zero q pts.isC k neighborT
  obtain ⟨h7, h8⟩ := h6 (by positivity)
  obtain ⟨out, g1, g2, g3, -⟩ := pyKnnInto_core (nns := .default neighborT) (neighborT := neighborT) hv hp
    hD hst rfl h1 h2 (b := 0) h3 (by rw [h4]; simp) hs
  refine ⟨_, g1, h5, h7, h3, by rw [g2, h4]; simp, fun i hi x hx => ?_⟩
  obtain ⟨s, r, e1, e2, e3, e4⟩ := g3 i hi x hx
  simp only [Nat.zero_add] at e4
  refine ⟨r, hQ i hi x hx s r (memSlice_some e1).2.1 e2, e3, e4, fun hC j hj => ?_⟩
  rw [← e4 j hj]
  unfold NArray.get NArray.pos
  dsimp only
  rw [h3, h8, h7, hC]
  by_cases h1 : k = 1
  · subst h1
    obtain rfl : j = 0 := by omega
    simp [cStrides, readAt]
  · have e : (0 : Int) + (i * k + j : Nat) = ((i * k + j : Nat) : Int) := by omega
    simp only [h1, if_true, if_false, cStrides, List.zip_cons_cons, List.map_cons, List.sum_cons, List.prod_cons,
      List.prod_nil, List.zip_nil_right, List.map_nil, List.sum_nil, Nat.cast_one, mul_one, add_zero]
    rw [show (0 : Int) + ((i : Int) * (k : Int) + (j : Int)) = ((i * k + j : Nat) : Int) by push_cast; ring]
    unfold readAt
    rw [if_pos (by omega)]
    rfl

end

section
variable {α F : Type} [Field α] [LinearOrder α] [IsStrictOrderedRing α]

/-- The distance a metric stands for. -/
def pyDist {d : Nat} : PyMetric → (x y : Fin d → α) → α
  | .l1 => Spec.l1
  | .l2Squared => Spec.l2Sq
  | .lpinf => fun x y => (List.ofFn fun j => |x j - y j|).foldl max 0

/-- The answer to a search for `k` neighbors, exact or with a ratio. -/
def KnnAnswer (n k : Nat) (dist : Nat → α) : Option α → List (Neighbor α) → Prop
  | none, r => IsKnn n k dist r
  | some e, r => IsApproxKnn n k dist e r

/-- The answer to a search with a radius, exact or with a ratio. -/
def RadiusAnswer (n : Nat) (dist : Nat → α) (r : α) : Option α → List (Neighbor α) → Prop
  | none, out => IsRadius n dist r out
  | some e, out => IsApproxRadius n dist r e out

theorem pyMetric_additive {d : Nat} {m : PyMetric} (hm : m ≠ .lpinf ∨ d = 1) :
    EuclideanAdditive (pyMetric (α := α) d m) := by
  cases m with
  | l1 => exact additive_l1
  | l2Squared => exact additive_l2Sq
  | lpinf =>
    obtain h | rfl := hm
    · exact (h rfl).elim
    · exact additive_lpinf

theorem pyMetric_dist {d : Nat} {m : PyMetric} (hm : m ≠ .lpinf ∨ d = 1) (x y : Pt α d) :
    (pyMetric d m).dist x y = pyDist m x y := by
  cases m with
  | l1 => exact metricL1_dist x y
  | l2Squared => exact metricL2Sq_dist x y
  | lpinf =>
    obtain h | rfl := hm
    · exact (h rfl).elim
    · refine (congrFun (lpinf_fun x fun _ => y) 0).trans ?_
      simp [pyDist]

/-- The type of the neighbors that go with a scalar type: an index and a `float`, an index and a `double`. -/
def recordType (t : DType) : DType := if t = .float32 then .neighborF else .neighborD

theorem neighborDType_eq (t : DType) : neighborDType t = recordType t := by cases t <;> rfl

variable {E : PyEnv α F} {P : DType → Platform α} {m : PyMetric} {a pts : NArray α} {n d q : Nat} {T : PyTree α}
  {data : Nat → Fin d → α}

/-- C119: `metric(v)` turns a length into what the searches compare: the absolute value of the argument, converted to the
scalar type of the array, or its square. -/
theorem c119_metric (h : Made E P m n d a T) (v : F) :
    T.applyMetric E v = if m = .l2Squared then E.narrow a.dtype v ^ 2 else |E.narrow a.dtype v| := by
  obtain ⟨-, -, h1, -, -, -, -, -, leaf, fuel, h2⟩ := over_of_made h
  unfold PyTree.applyMetric
  rw [(KdTree.make_ok h2).2.1, h1]
  cases m
  · exact sabs_eq _
  · exact (pow_two _).symm
  · exact sabs_eq _

/-- C119 (k nearest neighbors; partial: `k` at most the number of points, `Metric.LPInf` on a line only, see
`c119_lpinf_false` and `c119_more_false`):
whichever way the arguments are passed, row `i` of the output holds the `k` nearest rows of the array of points to row
`i` of the queries, in order. -/
theorem c119_knn_partial (h : Made E P m n d a T) (hm : m ≠ .lpinf ∨ d = 1) (hdata : ∀ t < n, IsPoint a t (data t))
    (hlow : (E.num a.dtype).low ≤ (E.num a.dtype).big) (hr : ∀ t < n, ∀ j, InRange (E.num a.dtype) (data t j))
    (hv : Valid pts) (hp : Points pts q d) (hdt : pts.dtype = a.dtype) (hq : 0 < q)
    {k : Nat} (hk : 0 < k) (hkn : k ≤ n) (hcap : q * k ≤ E.cap) (hcap' : E.cap < half64)
    (hbig : ∀ i < q, ∀ x, IsPoint pts i x → ∀ t < n, pyDist m x (data t) < (E.num a.dtype).big)
    (e : Option F) (he : ∀ v, e = some v → 1 ≤ E.narrow a.dtype v) (ta tn : Option Bool) (te : Bool) (s : Nat)
    (kw : List (Name × PyArg α F)) (hkw : kw.Perm ((knnArgs (PyArr.scalars pts) k e none ta tn te).drop s)) :
    ∃ out, T.callKnn E (((knnArgs (PyArr.scalars pts) k e none ta tn te).take s).map Prod.snd) kw = .ok out ∧
      out.dtype = recordType a.dtype ∧
      out.shape = (if k = 1 then [q] else if pts.isC then [q, k] else [k, q]) ∧ out.base = 0 ∧ out.buf.length = q * k ∧
      ∀ i < q, ∀ x, IsPoint pts i x →
        ∃ r, KnnAnswer n k (fun t => pyDist m x (data t)) (e.map (E.narrow a.dtype)) r ∧ r.length = k ∧
          (∀ j < k, out.buf[i * k + j]? = r[j]?) ∧
          (pts.isC = true → ∀ j < k, out.get (if k = 1 then [i] else [i, j]) = r[j]?) := by
  rw [← neighborDType_eq]
  have hO := over_of_made h
  unfold PyTree.callKnn pyCall
  rw [c117_knn (PyArr.scalars pts) (k : Int) e none ta tn te s kw hkw]
  clear hkw h
  obtain ⟨dt, m', Dim, ⟨buf, dat, size, sdim, rm⟩, tree⟩ := T
  obtain ⟨h1, h2, h3, -, h4, h5, h6, -, leaf, fuel, h8⟩ := hO
  dsimp only at h1 h2 h3 h4 h5 h6 h8
  subst h1 h2 h3 h4 h5
  have hpts : ∀ t < size, tree.pts t = data t := fun t ht => isPoint_unique (h6 t ht) (hdata t ht)
  have hR : Representable (E.num a.dtype) tree.pts size ⟨E.std, .sliding, .maxLeafSize leaf, .fromSpace, 32⟩ :=
    ⟨hlow, fun t ht j => by rw [hpts t ht]; exact hr t ht j, trivial, nofun⟩
  have hM := pyMetric_additive (α := α) (d := sdim) hm
  have hb : ∀ i < q, ∀ x, IsPoint pts i x → ∀ t < size,
      (pyMetric sdim m').dist x (tree.pts t) < (E.num a.dtype).big := fun i hi x hx t ht => by
    rw [pyMetric_dist hm, hpts t ht]
    exact hbig i hi x hx t ht
  have hdist : ∀ x : Pt α sdim, ∀ t < size, (pyMetric sdim m').dist x (tree.pts t) = pyDist m' x (data t) :=
    fun x t ht => by rw [pyMetric_dist hm, hpts t ht]
  unfold PyTree.searchKnn
  dsimp only [Option.getD_none]
  refine knn_rows hv hp (dimFor_or sdim) hdt hq hk hcap hcap'
    (fun x r => KnnAnswer size k (fun t => pyDist m' x (data t)) (e.map (E.narrow a.dtype)) r) ?_ ?_
  · cases e with
    | none => exact fills_knn tree hk
    | some e => exact fills_knn_approx tree _ hk
  · intro i hi x hx s r hs hsr
    cases e with
    | none =>
      obtain ⟨r', e1, e2, e3, -⟩ := c03_range_partial hM h8 hR (by omega) x (hb i hi x hx) s (by omega)
      obtain rfl := Outcome.ok.inj (hsr.symm.trans e1)
      rw [List.take_of_length_le (by omega), hs] at e3
      exact e3.congr (hdist x)
    | some v =>
      obtain ⟨r', e1, e2⟩ := c06_knn_approx hM h8 hR (by omega) x (E.narrow a.dtype v) (he v rfl) (hb i hi x hx) k hk s
      have hres : KdTree.resize (min k tree.n) s = s := by
        rw [(KdTree.make_ok h8).2.2.2.2.1, min_eq_left hkn, KdTree.resize, List.take_of_length_le (by omega), hs]
        simp
      rw [KdTree.searchKnnApprox, hres] at e1
      obtain rfl := Outcome.ok.inj (hsr.symm.trans e1)
      exact e2.congr (hdist x)

/-- C119 (radius; partial: `Metric.LPInf` on a line only): list `i` of the output holds the rows of the array of points within the
radius of row `i` of the queries, each once, and sorted if that was asked for; what a given output held before is
gone. -/
theorem c119_radius_partial (h : Made E P m n d a T) (hm : m ≠ .lpinf ∨ d = 1) (hdata : ∀ t < n, IsPoint a t (data t))
    (hlow : (E.num a.dtype).low ≤ (E.num a.dtype).big) (hr : ∀ t < n, ∀ j, InRange (E.num a.dtype) (data t j))
    (hn : 0 < n) (hv : Valid pts) (hp : Points pts q d) (hdt : pts.dtype = a.dtype) (radius : F)
    (e : Option F) (he : ∀ v, e = some v → 1 ≤ E.narrow a.dtype v) (nns : Option (List (List (Neighbor α))))
    (sort : Option Bool) (ta : Option Bool) (tr te tx : Bool) (s : Nat) (kw : List (Name × PyArg α F))
    (hkw : kw.Perm ((radiusArgs (PyArr.scalars pts) radius e
      (nns.map (PyCells.neighbors (recordType a.dtype))) sort ta tr te tx).drop s)) :
    ∃ out, T.callRadius E (((radiusArgs (PyArr.scalars pts) radius e
        (nns.map (PyCells.neighbors (recordType a.dtype))) sort ta tr te tx).take s).map Prod.snd) kw = .ok out ∧
      out.length = q ∧ ∀ i < q, ∀ x, IsPoint pts i x → ∃ r, out[i]? = some r ∧
        RadiusAnswer n (fun t => pyDist m x (data t)) (E.narrow a.dtype radius) (e.map (E.narrow a.dtype)) r ∧
        (sort = some true → r.Pairwise fun a b => a.distance ≤ b.distance) := by
  rw [← neighborDType_eq] at hkw ⊢
  have hO := over_of_made h
  unfold PyTree.callRadius pyCall
  rw [c117_radius (PyArr.scalars pts) radius e _ sort ta tr te tx s kw hkw]
  clear hkw h
  obtain ⟨dt, m', Dim, ⟨buf, dat, size, sdim, rm⟩, tree⟩ := T
  obtain ⟨h1, h2, h3, -, h4, h5, h6, -, leaf, fuel, h8⟩ := hO
  dsimp only at h1 h2 h3 h4 h5 h6 h8
  subst h1 h2 h3 h4 h5
  have hpts : ∀ t < size, tree.pts t = data t := fun t ht => isPoint_unique (h6 t ht) (hdata t ht)
  have hR : Representable (E.num a.dtype) tree.pts size ⟨E.std, .sliding, .maxLeafSize leaf, .fromSpace, 32⟩ :=
    ⟨hlow, fun t ht j => by rw [hpts t ht]; exact hr t ht j, trivial, nofun⟩
  have hM := pyMetric_additive (α := α) (d := sdim) hm
  have hdist : ∀ x : Pt α sdim, ∀ t < size, (pyMetric sdim m').dist x (tree.pts t) = pyDist m' x (data t) :=
    fun x t ht => by rw [pyMetric_dist hm, hpts t ht]
  have hout : (nns.map (PyCells.neighbors (neighborDType a.dtype))).getD (.neighbors (neighborDType a.dtype) []) =
      .neighbors (neighborDType a.dtype) (nns.getD []) := by cases nns <;> rfl
  have hsort : sort = some true → sort.getD false = true := fun h => by rw [h]; rfl
  unfold PyTree.searchRadius
  dsimp only
  rw [hout]
  cases e with
  | none =>
    obtain ⟨out, g1, g2, g3⟩ := c33_radius (neighborT := neighborDType a.dtype) hv hp (dimFor_or sdim) hdt tree E.sorter
      (E.narrow a.dtype radius) (sort.getD false) (nns.getD [])
    refine ⟨out, g1, g2, fun i hi x hx => ⟨_, g3 i hi x hx, ?_⟩⟩
    obtain ⟨r1, r2⟩ := c15_radius_euclidean hM h8 hR hn x E.sorter (E.narrow a.dtype radius) [] (sort.getD false)
    exact ⟨r1.congr (hdist x), fun h => r2 (hsort h)⟩
  | some v =>
    obtain ⟨out, g1, g2, g3⟩ := c33_radius_approx (neighborT := neighborDType a.dtype) hv hp (dimFor_or sdim) hdt tree
      E.sorter (E.narrow a.dtype radius) (E.narrow a.dtype v) (sort.getD false) (nns.getD [])
    refine ⟨out, g1, g2, fun i hi x hx => ⟨_, g3 i hi x hx, ?_⟩⟩
    obtain ⟨r1, r2⟩ := c07_radius_approx hM h8 hR hn x E.sorter (E.narrow a.dtype radius) (E.narrow a.dtype v) (he v rfl)
      [] (sort.getD false)
    exact ⟨r1.congr (hdist x), fun h => r2 (hsort h)⟩

/-- C119 (boxes, all metrics): list `i` of the output holds the rows of the array of points inside of the box with the
corners in rows `2 i` and `2 i + 1`. -/
theorem c119_box (h : Made E P m n d a T) (hdata : ∀ t < n, IsPoint a t (data t)) (hv : Valid pts)
    (hp : Points pts (2 * q) d) (hdt : pts.dtype = a.dtype) (indices : Option (List (List Nat))) (ta : Option Bool)
    (tx : Bool) (s : Nat) (kw : List (Name × PyArg α F))
    (hkw : kw.Perm ((boxArgs (PyArr.scalars pts) (indices.map PyCells.indices) ta tx).drop s)) :
    ∃ out, T.callBox (((boxArgs (F := F) (PyArr.scalars pts) (indices.map PyCells.indices) ta tx).take s).map Prod.snd) kw
        = .ok out ∧
      out.length = q ∧ ∀ i < q, ∀ x y, IsPoint pts (2 * i) x → IsPoint pts (2 * i + 1) y →
        ∃ l, out[i]? = some l ∧ IsSelection n (fun t => InBox x y (data t)) l := by
  have hO := over_of_made h
  unfold PyTree.callBox pyCall
  rw [c117_box (PyArr.scalars pts) _ ta tx s kw hkw]
  clear hkw h
  obtain ⟨dt, m', Dim, ⟨buf, dat, size, sdim, rm⟩, tree⟩ := T
  obtain ⟨h1, h2, h3, -, h4, h5, h6, -, leaf, fuel, h8⟩ := hO
  dsimp only at h1 h2 h3 h4 h5 h6 h8
  subst h1 h2 h3 h4 h5
  have hout : (indices.map (PyCells.indices (α := α))).getD (.indices []) = .indices (indices.getD []) := by
    cases indices <;> rfl
  unfold PyTree.searchBox
  dsimp only
  rw [hout]
  obtain ⟨out, g1, g2, g3⟩ := c37_exact h8 trivial hv (dimFor_or sdim) hp .int32 (indices.getD [])
  rw [hdt] at g1
  refine ⟨out, g1, g2, fun i hi x y hx hy => ?_⟩
  obtain ⟨l, e1, e2, e3⟩ := g3 i hi x y hx hy
  refine ⟨l, e1, e2, fun t => (e3 t).trans (and_congr_right fun ht => ?_)⟩
  dsimp only
  rw [isPoint_unique (h6 t ht) (hdata t ht)]

end

/-! ## Examples -/

/-- Rational numbers in the place of `float` and `double`. -/
def ratEnv : PyEnv Rat Rat := ⟨fun _ => Ref.ratNum, Ref.std, Ref.sorter _, 1000, fun _ => id⟩

/-- Integers from `-2^20` in four bytes. -/
def ratCodec : Codec Rat :=
  (Codec.unsigned 4).view (fun x => (x.num + 1048576).toNat) fun v => some ((v : Rat) - 1048576)

def ratPlatform : DType → Platform Rat := fun _ => .le64 ratCodec

/-- The points of `maxPts`. -/
def maxArr : NArray Rat := ⟨.float32, [5, 2], [2, 1], 0, [5, 8, 6, 6, 8, 8, 7, 5, 8, 3], true, true⟩

/-- The same points, in the second half of a larger buffer. -/
def maxArr' : NArray Rat := ⟨.float32, [5, 2], [2, 1], 2, [0, 0, 5, 8, 6, 6, 8, 8, 7, 5, 8, 3], true, false⟩

/-- Two queries. -/
def twoQueries : NArray Rat := ⟨.float32, [2, 2], [2, 1], 0, [4, 4, 8, 2], true, true⟩

/-- Two boxes. -/
def twoBoxes : NArray Rat := ⟨.float32, [4, 2], [2, 1], 0, [5, 5, 7, 9, 0, 0, 8, 8], true, true⟩

/-- Three points for the maximum metric. -/
def threeArr : NArray Rat := ⟨.float64, [3, 2], [2, 1], 0, [4, 2, 1, 5, 4, 0], true, true⟩

/-- A query. -/
def oneQuery : NArray Rat := ⟨.float64, [1, 2], [2, 1], 0, [7, 5], true, true⟩

/-- C119 is false for `Metric.LPInf` in the plane: `KdTree(pts, Metric.LPInf, 1).search_knn(queries, 1)` gives a point at
distance 5 although row 0 of the array is at distance 3. -/
theorem c119_lpinf_false : ∃ T, PyTree.make ratEnv threeArr .lpinf 1 20 = .ok T ∧
    (∃ out, T.callKnn ratEnv [.array (.scalars oneQuery) none, .int 1] [] = .ok out ∧ out.buf = [⟨2, 5⟩]) ∧
    IsPoint threeArr 0 (![4, 2] : Fin 2 → Rat) ∧ IsPoint oneQuery 0 (![7, 5] : Fin 2 → Rat) ∧
    pyDist .lpinf (![7, 5] : Fin 2 → Rat) ![4, 2] = 3 := by
  obtain ⟨T, h1, h2⟩ := Call.exists_of_check (x := PyTree.make ratEnv threeArr .lpinf 1 20)
    (p := fun T => (T.callKnn ratEnv [.array (.scalars oneQuery) none, .int 1] []).check fun out =>
      decide (out.buf = [⟨2, 5⟩])) (by decide +kernel)
  obtain ⟨out, h3, h4⟩ := Call.exists_of_check h2
  exact ⟨T, h1, ⟨out, h3, of_decide_eq_true h4⟩, by unfold IsPoint; decide +kernel, by unfold IsPoint; decide +kernel, by decide +kernel⟩

/-- C119 is false for more neighbors than points: the surplus is filled with what is not a point of the array; its last
entry is at the largest distance of the scalar type. -/
theorem c119_more_false : ∃ T, PyTree.make ratEnv maxArr .l2Squared 1 20 = .ok T ∧
    ∃ out, T.callKnn ratEnv [.array (.scalars twoQueries) none, .int 7] [] = .ok out ∧ out.shape = [2, 7] ∧
      out.get [0, 5] = some ⟨0, 0⟩ ∧ out.get [0, 6] = some ⟨0, 1000000⟩ ∧
      ∀ t < 5, ∀ x : Fin 2 → Rat, IsPoint maxArr t x → pyDist .l2Squared ![4, 4] x ≠ 0 ∧
        pyDist .l2Squared ![4, 4] x ≠ 1000000 := by
  obtain ⟨T, h1, h2⟩ := Call.exists_of_check (x := PyTree.make ratEnv maxArr .l2Squared 1 20)
    (p := fun T => (T.callKnn ratEnv [.array (.scalars twoQueries) none, .int 7] []).check fun out =>
      decide (out.shape = [2, 7] ∧ out.get [0, 5] = some ⟨0, 0⟩ ∧ out.get [0, 6] = some ⟨0, 1000000⟩))
    (by decide +kernel)
  obtain ⟨out, h3, h4⟩ := Call.exists_of_check h2
  obtain ⟨h5, h6, h7⟩ := of_decide_eq_true h4
  refine ⟨T, h1, out, h3, h5, h6, h7, fun t ht x hx => ?_⟩
  have : IsPoint maxArr t (maxPts t) := by
    clear hx h1 h2 h3 h4 h5 h6 h7
    revert t
    unfold IsPoint
    decide +kernel
  rw [isPoint_unique hx this]
  clear hx this h1 h2 h3 h4 h5 h6 h7
  revert t
  decide +kernel

theorem good_ratCodec {x : Rat} (i : Int) (hx : x = i) (h : -1048576 ≤ i) (h' : i ≤ 1048576) : ratCodec.Good x := by
  subst hx
  refine good_view (good_unsigned (by norm_num; omega)) ?_
  rw [show ((i : Rat).num + 1048576).toNat = (i + 1048576).toNat by simp]
  have : (((i + 1048576).toNat : Nat) : Rat) = i + 1048576 := by
    rw [← Int.cast_natCast (R := Rat), Int.toNat_of_nonneg (by omega)]
    push_cast
    rfl
  rw [this]
  simp

theorem maxArr_storable : Storable ratEnv ratPlatform maxArr 5 2 where
  holds := holds_le64 _ (by norm_num) (by norm_num)
  coords i hi x hx j := by
    have : IsPoint maxArr i (maxPts i) := by
      clear hx
      revert i
      unfold IsPoint
      decide +kernel
    rw [isPoint_unique hx this]
    refine good_ratCodec (maxPts i j).num ?_ ?_ ?_ <;>
    · clear hx this
      revert i j
      decide +kernel
  big := good_ratCodec 1000000 (by decide +kernel) (by decide) (by decide)
  low := good_ratCodec (-1000000) (by decide +kernel) (by decide) (by decide)

theorem valid_of_two {τ : Type} {a : NArray τ} {r c : Nat} (hs : a.shape = [r, c]) (h1 : a.strides.length = 2)
    (h2 : ∀ i < r, ∀ j < c, (a.get [i, j]).isSome = true)
    (h3 : a.owns = true → a.base = 0 ∧ a.buf.length = a.shape.prod) : Valid a := by
  refine ⟨by rw [h1, hs]; rfl, fun idx h => ?_, h3⟩
  rw [hs, InShape] at h
  match idx, h with
  | [i, j], .cons hi (.cons hj .nil) => exact h2 i hi j hj

theorem maxArr_same : SamePoints maxArr maxArr' 5 2 := by
  refine ⟨⟨valid_of_two rfl rfl (by decide +kernel) (by decide +kernel), ?_⟩,
    ⟨valid_of_two rfl rfl (by decide +kernel) (by decide +kernel), ?_⟩, rfl, fun i hi x hx => ?_⟩
  · unfold Points
    decide +kernel
  · unfold Points
    decide +kernel
  · have h : IsPoint maxArr i (maxPts i) ∧ IsPoint maxArr' i (maxPts i) := by
      clear hx
      revert i
      unfold IsPoint
      decide +kernel
    rw [isPoint_unique hx h.1]
    exact h.2

/-- The hypotheses of the theorems are met by a tree that was saved and loaded with another array, and what they say is
what the calls give. -/
example : ∃ T T', PyTree.make ratEnv maxArr .l2Squared 1 20 = .ok T ∧
    PyTree.load ratEnv ratPlatform (fun _ _ => 7) maxArr' 1000 (T.save (fun _ => 3) ratPlatform ++ [1, 2]) = .ok T' ∧
    Made ratEnv ratPlatform .l2Squared 5 2 maxArr' T' ∧ (∀ t < 5, IsPoint maxArr' t (maxPts t)) ∧
    (∀ t < 5, ∀ j, InRange (ratEnv.num maxArr'.dtype) (maxPts t j)) ∧ Points twoQueries 2 2 ∧ 2 * 2 ≤ ratEnv.cap ∧
    (∃ out, T'.callKnn ratEnv [.array (.scalars twoQueries) none] [(.k, .int 2)] = .ok out ∧
      out.buf = [⟨1, 8⟩, ⟨3, 10⟩, ⟨4, 1⟩, ⟨3, 10⟩]) ∧
    (∃ out, T'.callRadius ratEnv [.array (.scalars twoQueries) none, .float 11 true] [(.sort, .bool true)] = .ok out ∧
      out = [[⟨1, 8⟩, ⟨3, 10⟩], [⟨4, 1⟩, ⟨3, 10⟩]]) ∧
    ∃ out, T'.callBox (F := Rat) [.array (.scalars twoBoxes) none] [] = .ok out ∧
      out = [[3, 1, 0], [3, 4, 1, 0, 2]] := by
  obtain ⟨T, h1, h2⟩ := Call.exists_of_check (x := PyTree.make ratEnv maxArr .l2Squared 1 20)
    (p := fun T : PyTree Rat => decide ((T.save (fun _ => 3) ratPlatform ++ ([1, 2] : List Byte)).length < 1000) &&
      (PyTree.load ratEnv ratPlatform (fun _ _ => 7) maxArr' 1000 (T.save (fun _ => 3) ratPlatform ++ [1, 2])).check
        fun T' => ((T'.callKnn ratEnv [.array (.scalars twoQueries) none] [(.k, .int 2)]).check fun out =>
          decide (out.buf = [⟨1, 8⟩, ⟨3, 10⟩, ⟨4, 1⟩, ⟨3, 10⟩])) &&
          ((T'.callRadius ratEnv [.array (.scalars twoQueries) none, .float 11 true] [(.sort, .bool true)]).check
            fun out => decide (out = [[⟨1, 8⟩, ⟨3, 10⟩], [⟨4, 1⟩, ⟨3, 10⟩]])) &&
          (T'.callBox (F := Rat) [.array (.scalars twoBoxes) none] []).check fun out =>
            decide (out = [[3, 1, 0], [3, 4, 1, 0, 2]]))
    (by decide +kernel)
  rw [Bool.and_eq_true] at h2
  obtain ⟨T', h3, h4⟩ := Call.exists_of_check h2.2
  rw [Bool.and_eq_true, Bool.and_eq_true] at h4
  obtain ⟨o1, g1, g2⟩ := Call.exists_of_check h4.1.1
  obtain ⟨o2, g3, g4⟩ := Call.exists_of_check h4.1.2
  obtain ⟨o3, g5, g6⟩ := Call.exists_of_check h4.2
  refine ⟨T, T', h1, h3, .load (.make maxArr_same.left.1 maxArr_same.left.2 h1) maxArr_same maxArr_storable _ _ _ _
    (of_decide_eq_true h2.1) h3, ?_, ?_, ?_, ?_, ⟨o1, g1, of_decide_eq_true g2⟩, ⟨o2, g3, of_decide_eq_true g4⟩,
    o3, g5, of_decide_eq_true g6⟩
  · unfold IsPoint
    decide +kernel
  · unfold InRange
    decide +kernel
  · unfold Points
    decide +kernel
  · decide +kernel

end Pico.Props
