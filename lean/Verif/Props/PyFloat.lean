import Verif.Props.PyTree
import Verif.Props.Grid
import Verif.Props.TrueDistance
import Verif.Props.Lookup
import Verif.Props.Examples

/-!
# C138: from arrays to arrays in floating point arithmetic

C119 for scalars that are rounded. `data t` is row `t` of the array of points.
-/

set_option linter.unusedSectionVars false

namespace Pico.Props

open Pico Spec Pico.Bind Gtest

section Rows
variable {α F : Type} [LinearOrder α] [Zero α] [One α] [Add α] [Sub α] [Neg α] [Mul α] [Div α]
  {E : PyEnv α F} {P : DType → Platform α} {m : PyMetric} {a pts : NArray α} {n d q : Nat} {T : PyTree α}
  {data : Nat → Fin d → α}

/-- A C++ tree of the points, made as the Python class does, with the nodes of `T`. -/
def TreeOf (E : PyEnv α F) (m : PyMetric) (dt : DType) (n : Nat) (data : Nat → Fin d → α) (T : PyTree α)
    (t : KdTree α d (Branch1 α d)) : Prop :=
  Spec.height t.data.root = Spec.height T.tree.data.root ∧ ∃ pts leaf fuel, (∀ i < n, pts i = data i) ∧
    KdTree.make (euclideanTag α d) (pyMetric d m) (E.num dt) pts n ⟨E.std, .sliding, .maxLeafSize leaf, .fromSpace, 32⟩ fuel
      = .ok t

/-- Every form of a call `search_knn(pts, k)` gives an array of `k` neighbors for each of the `q` queries; the ones of
query `x` satisfy `Q x`. -/
def KnnCalls (E : PyEnv α F) (T : PyTree α) (dt : DType) (pts : NArray α) (q k d : Nat)
    (Q : (Fin d → α) → List (Neighbor α) → Prop) : Prop :=
  ∀ (ta tn : Option Bool) (te : Bool) (s : Nat) (kw : List (Name × PyArg α F)),
    kw.Perm ((knnArgs (PyArr.scalars pts) k none none ta tn te).drop s) →
    ∃ out, T.callKnn E (((knnArgs (PyArr.scalars pts) k none none ta tn te).take s).map Prod.snd) kw = .ok out ∧
      out.dtype = recordType dt ∧
      out.shape = (if k = 1 then [q] else if pts.isC then [q, k] else [k, q]) ∧ out.base = 0 ∧ out.buf.length = q * k ∧
      ∀ i < q, ∀ x, IsPoint pts i x → ∃ r, Q x r ∧ r.length = k ∧ (∀ j < k, out.buf[i * k + j]? = r[j]?) ∧
        (pts.isC = true → ∀ j < k, out.get (if k = 1 then [i] else [i, j]) = r[j]?)

/-- Every form of a call `search_radius(pts, radius)`, sorted or not, with or without a `DArray` for the output, gives a
list of neighbors for each of the `q` queries; the ones of query `x` satisfy `Q x`. -/
def RadiusCalls (E : PyEnv α F) (T : PyTree α) (dt : DType) (pts : NArray α) (q d : Nat) (radius : F)
    (sort : Option Bool) (Q : (Fin d → α) → List (Neighbor α) → Prop) : Prop :=
  ∀ (nns : Option (List (List (Neighbor α)))) (ta : Option Bool) (tr te tx : Bool) (s : Nat)
    (kw : List (Name × PyArg α F)),
    kw.Perm ((radiusArgs (PyArr.scalars pts) radius none
      (nns.map (PyCells.neighbors (recordType dt))) sort ta tr te tx).drop s) →
    ∃ out, T.callRadius E (((radiusArgs (PyArr.scalars pts) radius none
        (nns.map (PyCells.neighbors (recordType dt))) sort ta tr te tx).take s).map Prod.snd) kw = .ok out ∧
      out.length = q ∧ ∀ i < q, ∀ x, IsPoint pts i x → ∃ r, out[i]? = some r ∧ Q x r

/-- Every form of a call `search_knn` without ratio and output: row `i` has every property of what the C++ function finds
for row `i` of the queries. -/
theorem knn_rows_of_tree (h : Made E P m n d a T) (hdata : ∀ t < n, IsPoint a t (data t))
    (hv : Valid pts) (hp : Points pts q d) (hdt : pts.dtype = a.dtype) (hq : 0 < q)
    {k : Nat} (hk : 0 < k) (hkn : k ≤ n) (hcap : q * k ≤ E.cap) (hcap' : E.cap < half64)
    (Q : Pt α d → List (Neighbor α) → Prop)
    (hQ : ∀ t, TreeOf E m a.dtype n data T t → ∀ i < q, ∀ x, IsPoint pts i x → ∀ prior r, t.searchKnn x k prior = .ok r →
      Q x r) :
    KnnCalls E T a.dtype pts q k d Q := by
  intro ta tn te s kw hkw
  rw [← neighborDType_eq]
  have hO := over_of_made h
  unfold PyTree.callKnn pyCall
  rw [c117_knn (PyArr.scalars pts) (k : Int) none none ta tn te s kw hkw]
  clear hkw h
  obtain ⟨dt, m', Dim, ⟨buf, dat, size, sdim, rm⟩, tree⟩ := T
  obtain ⟨h1, h2, h3, -, h4, h5, h6, -, leaf, fuel, h8⟩ := hO
  dsimp only at h1 h2 h3 h4 h5 h6 h8
  subst h1 h2 h3 h4 h5
  have hpts : ∀ t < size, tree.pts t = data t := fun t ht => isPoint_unique (h6 t ht) (hdata t ht)
  unfold PyTree.searchKnn
  dsimp only [Option.getD_none]
  refine knn_rows hv hp (dimFor_or sdim) hdt hq hk hcap hcap' Q (fills_knn tree hk) ?_
  intro i hi x hx s r hs hsr
  refine hQ tree ⟨rfl, tree.pts, leaf, fuel, hpts, h8⟩ i hi x hx s r ?_
  have hres : KdTree.resize (min k tree.n) s = s := by
    rw [(KdTree.make_ok h8).2.2.2.2.1, min_eq_left hkn, KdTree.resize, List.take_of_length_le (by omega), hs]
    simp
  rw [KdTree.searchKnn, hres]
  exact hsr

/-- Every form of a call `search_radius` without ratio: list `i` is what the C++ function finds for row `i` of the
queries. -/
theorem radius_rows_of_tree (h : Made E P m n d a T) (hdata : ∀ t < n, IsPoint a t (data t))
    (hv : Valid pts) (hp : Points pts q d) (hdt : pts.dtype = a.dtype) (radius : F)
    (sort : Option Bool) (Q : Pt α d → List (Neighbor α) → Prop)
    (hQ : ∀ t, TreeOf E m a.dtype n data T t → ∀ i < q, ∀ x, IsPoint pts i x →
      Q x (t.searchRadius E.sorter x (E.narrow a.dtype radius) [] (sort.getD false))) :
    RadiusCalls E T a.dtype pts q d radius sort Q := by
  intro nns ta tr te tx s kw hkw
  rw [← neighborDType_eq] at hkw ⊢
  have hO := over_of_made h
  unfold PyTree.callRadius pyCall
  rw [c117_radius (PyArr.scalars pts) radius none _ sort ta tr te tx s kw hkw]
  clear hkw h
  obtain ⟨dt, m', Dim, ⟨buf, dat, size, sdim, rm⟩, tree⟩ := T
  obtain ⟨h1, h2, h3, -, h4, h5, h6, -, leaf, fuel, h8⟩ := hO
  dsimp only at h1 h2 h3 h4 h5 h6 h8
  subst h1 h2 h3 h4 h5
  have hpts : ∀ t < size, tree.pts t = data t := fun t ht => isPoint_unique (h6 t ht) (hdata t ht)
  have hout : (nns.map (PyCells.neighbors (neighborDType a.dtype))).getD (.neighbors (neighborDType a.dtype) []) =
      .neighbors (neighborDType a.dtype) (nns.getD []) := by cases nns <;> rfl
  unfold PyTree.searchRadius
  dsimp only
  rw [hout]
  obtain ⟨out, g1, g2, g3⟩ := c33_radius (neighborT := neighborDType a.dtype) hv hp (dimFor_or sdim) hdt tree E.sorter
    (E.narrow a.dtype radius) (sort.getD false) (nns.getD [])
  exact ⟨out, g1, g2, fun i hi x hx => ⟨_, g3 i hi x hx, hQ tree ⟨rfl, tree.pts, leaf, fuel, hpts, h8⟩ i hi x hx⟩⟩

/-- C138: in every arithmetic and with every metric, the neighbors found are different rows of the array with the
distances the metric computes, in order; should distances reach the largest value, entries without meaning follow and the
last of them has that value. -/
theorem c138_knn_genuine (h : Made E P m n d a T) (hdata : ∀ t < n, IsPoint a t (data t))
    (hv : Valid pts) (hp : Points pts q d) (hdt : pts.dtype = a.dtype) (hq : 0 < q)
    {k : Nat} (hk : 0 < k) (hkn : k ≤ n) (hcap : q * k ≤ E.cap) (hcap' : E.cap < half64) :
    KnnCalls E T a.dtype pts q k d fun x r => ∃ L tail, r = L ++ tail ∧
      L.Pairwise (fun a b => a.distance ≤ b.distance) ∧ (L.map Neighbor.index).Nodup ∧
      (∀ y ∈ L, y.index < n ∧ y.distance = (pyMetric d m).dist x (data y.index) ∧ y.distance < (E.num a.dtype).big) ∧
      ∀ y, tail.getLast? = some y → y.distance = (E.num a.dtype).big := by
  refine knn_rows_of_tree h hdata hv hp hdt hq hk hkn hcap hcap' _ ?_
  rintro t ⟨-, f, leaf, fuel, hf, ht⟩ i hi x hx prior r hr
  obtain ⟨L, tail, h1, h2, h3, h4, h5, h6⟩ := c44_knn_partial ht x k prior hk (by omega)
  obtain rfl := Outcome.ok.inj (hr.symm.trans h1)
  exact ⟨L, tail, rfl, h3, h4, fun y hy => by rw [← hf _ (h5 y hy).1]; exact h5 y hy, h6⟩

/-- C138: the same for a radius. -/
theorem c138_radius_genuine (h : Made E P m n d a T) (hdata : ∀ t < n, IsPoint a t (data t))
    (hv : Valid pts) (hp : Points pts q d) (hdt : pts.dtype = a.dtype) (radius : F) (sort : Option Bool) :
    RadiusCalls E T a.dtype pts q d radius sort fun x r => (r.map Neighbor.index).Nodup ∧
      (∀ y ∈ r, y.index < n ∧ y.distance = (pyMetric d m).dist x (data y.index) ∧
        y.distance < E.narrow a.dtype radius) ∧
      (sort = some true → r.Pairwise fun a b => a.distance ≤ b.distance) := by
  refine radius_rows_of_tree h hdata hv hp hdt radius sort _ ?_
  rintro t ⟨-, f, leaf, fuel, hf, ht⟩ i hi x hx
  obtain ⟨h1, h2, h3⟩ := c44_radius ht x E.sorter (E.narrow a.dtype radius) [] (sort.getD false)
  exact ⟨h1, fun y hy => by rw [← hf _ (h2 y hy).1]; exact h2 y hy, fun hs => h3 (by rw [hs]; rfl)⟩

theorem exact_rows {t : KdTree α d (Branch1 α d)} (ht : TreeOf E m a.dtype n data T t) (hn : 0 < n) {x : Pt α d}
    (hE : ExactAt t x) :
    ((∀ i < n, (pyMetric d m).dist x (data i) < (E.num a.dtype).big) → ∀ {k prior r}, 0 < k → t.searchKnn x k prior = .ok r →
      IsKnn n k (fun i => (pyMetric d m).dist x (data i)) r) ∧
    ∀ r sort, IsRadius n (fun i => (pyMetric d m).dist x (data i)) r (t.searchRadius E.sorter x r [] sort) ∧
      (sort = true → (t.searchRadius E.sorter x r [] sort).Pairwise fun a b => a.distance ≤ b.distance) := by
  obtain ⟨-, f, leaf, fuel, hf, ht⟩ := ht
  have hd : ∀ i < n, (pyMetric d m).dist x (f i) = (pyMetric d m).dist x (data i) := fun i hi => by rw [hf i hi]
  refine ⟨fun hb k prior r hk hr => ?_, fun r sort => ?_⟩
  · obtain ⟨out, h1, h2, -⟩ := knn_of_exact ht hE hn rfl (fun i hi => by rw [hd i hi]; exact hb i hi) k hk prior
    obtain rfl := Outcome.ok.inj (hr.symm.trans h1)
    exact h2.congr hd
  · obtain ⟨h1, h2⟩ := radius_of_exact ht hE rfl E.sorter r [] sort
    exact ⟨h1.congr hd, h2⟩

end Rows

section Rounded
variable {K : Type} [Field K] [LinearOrder K] [IsStrictOrderedRing K] {R : Rounding K} {F : Type}
  {E : PyEnv R.F F} {P : DType → Platform R.F} {m : PyMetric} {a pts : NArray R.F} {n d q : Nat} {T : PyTree R.F}

/-- What `exactAt_grid_l1` and `exactAt_grid_l2` say for the trees of the Python class. -/
theorem grid_rows {data : Nat → Fin d → R.F} {c : K} {B L : Nat} (hm : m ≠ .lpinf) (hc : 0 < c)
    (hX : R.ExactUpTo c L) (hX2 : R.ExactUpTo (c ^ 2) L) (hL : d * (2 * B) ^ 2 ≤ L)
    (hlow : (E.num a.dtype).low ≤ (E.num a.dtype).big) (hr : ∀ t < n, ∀ j, InRange (E.num a.dtype) (data t j))
    (hn : 0 < n) (hp : ∀ t < n, OnGrid c B (data t)) {x : Pt R.F d} (hx : OnGrid c B x)
    {t : KdTree R.F d (Branch1 R.F d)} (ht : TreeOf E m a.dtype n data T t) :
    ExactAt t x ∧ ∀ i < n, ((pyMetric d m).dist x (data i)).1 = pyDist m (R.exactPt x) (R.exactPt (data i)) := by
  obtain ⟨-, f, leaf, fuel, hf, ht⟩ := ht
  have hR : Representable (E.num a.dtype) f n ⟨E.std, .sliding, .maxLeafSize leaf, .fromSpace, 32⟩ :=
    ⟨hlow, fun t ht j => by rw [hf t ht]; exact hr t ht j, trivial, nofun⟩
  have hp' : ∀ i < n, OnGrid c B (f i) := fun i hi => by rw [hf i hi]; exact hp i hi
  cases m with
  | l1 =>
    have hL' : d * (2 * B) ≤ L := le_trans (Nat.mul_le_mul_left _ (by nlinarith [Nat.zero_le B])) hL
    obtain ⟨h1, h2⟩ := exactAt_grid_l1 hc hX hL' ht hR hn nofun x hx hp'
    exact ⟨h1, fun i hi => by rw [← hf i hi]; exact h2 i hi⟩
  | l2Squared =>
    obtain ⟨h1, h2⟩ := exactAt_grid_l2 hc hX hX2 hL ht hR hn nofun x hx hp'
    exact ⟨h1, fun i hi => by rw [← hf i hi]; exact h2 i hi⟩
  | lpinf => exact absurd rfl hm

/-- C138, coordinates on a grid: if all coordinates are multiples of `c` that are small enough, `search_knn` gives the `k`
nearest rows, with distances that are not rounded at all. -/
theorem c138_knn_grid {data : Nat → Fin d → R.F} {c : K} {B L : Nat} (h : Made E P m n d a T) (hm : m ≠ .lpinf)
    (hdata : ∀ t < n, IsPoint a t (data t)) (hc : 0 < c)
    (hX : R.ExactUpTo c L) (hX2 : R.ExactUpTo (c ^ 2) L) (hL : d * (2 * B) ^ 2 ≤ L)
    (hlow : (E.num a.dtype).low ≤ (E.num a.dtype).big) (hr : ∀ t < n, ∀ j, InRange (E.num a.dtype) (data t j))
    (hv : Valid pts) (hp : Points pts q d) (hdt : pts.dtype = a.dtype) (hq : 0 < q)
    {k : Nat} (hk : 0 < k) (hkn : k ≤ n) (hcap : q * k ≤ E.cap) (hcap' : E.cap < half64)
    (hpg : ∀ t < n, OnGrid c B (data t)) (hqg : ∀ i < q, ∀ x : Pt R.F d, IsPoint pts i x → OnGrid c B x)
    (hbig : ∀ i < q, ∀ x : Pt R.F d, IsPoint pts i x → ∀ t < n,
      pyDist m (R.exactPt x) (R.exactPt (data t)) < (E.num a.dtype).big.1) :
    KnnCalls E T a.dtype pts q k d fun x r => ∃ dist : Nat → R.F,
      (∀ t < n, (dist t).1 = pyDist m (R.exactPt x) (R.exactPt (data t))) ∧ IsKnn n k dist r := by
  refine knn_rows_of_tree h hdata hv hp hdt hq hk hkn hcap hcap' _ fun t ht i hi x hx prior r hr' => ?_
  obtain ⟨h1, h2⟩ := grid_rows hm hc hX hX2 hL hlow hr (by omega) hpg (hqg i hi x hx) ht
  refine ⟨_, h2, (exact_rows ht (by omega) h1).1 (fun j hj => ?_) hk hr'⟩
  rw [R.lt_iff, h2 j hj]
  exact hbig i hi x hx j hj

/-- C138, coordinates on a grid: `search_radius` gives exactly the rows within the radius. -/
theorem c138_radius_grid {data : Nat → Fin d → R.F} {c : K} {B L : Nat} (h : Made E P m n d a T) (hm : m ≠ .lpinf)
    (hdata : ∀ t < n, IsPoint a t (data t)) (hc : 0 < c)
    (hX : R.ExactUpTo c L) (hX2 : R.ExactUpTo (c ^ 2) L) (hL : d * (2 * B) ^ 2 ≤ L)
    (hlow : (E.num a.dtype).low ≤ (E.num a.dtype).big) (hr : ∀ t < n, ∀ j, InRange (E.num a.dtype) (data t j))
    (hn : 0 < n) (hv : Valid pts) (hp : Points pts q d) (hdt : pts.dtype = a.dtype)
    (hpg : ∀ t < n, OnGrid c B (data t)) (hqg : ∀ i < q, ∀ x : Pt R.F d, IsPoint pts i x → OnGrid c B x)
    (radius : F) (sort : Option Bool) :
    RadiusCalls E T a.dtype pts q d radius sort fun x r => (∃ dist : Nat → R.F,
        (∀ t < n, (dist t).1 = pyDist m (R.exactPt x) (R.exactPt (data t))) ∧
        IsRadius n dist (E.narrow a.dtype radius) r) ∧
      (sort = some true → r.Pairwise fun a b => a.distance ≤ b.distance) := by
  refine radius_rows_of_tree h hdata hv hp hdt radius sort _ fun t ht i hi x hx => ?_
  obtain ⟨h1, h2⟩ := grid_rows hm hc hX hX2 hL hlow hr hn hpg (hqg i hi x hx) ht
  obtain ⟨g1, g2⟩ := (exact_rows ht hn h1).2 (E.narrow a.dtype radius) (sort.getD false)
  exact ⟨⟨_, h2, g1⟩, fun hs => g2 (by rw [hs]; rfl)⟩

/-- The distance of numbers as it is computed: each operation is rounded. -/
def pyRounded (R : Rounding K) : PyMetric → (x y : Pt R.F 1) → K
  | .l2Squared => roundedL2 R
  | _ => roundedL1 R

theorem line_rows {data : Nat → Fin 1 → R.F} (hm : m ≠ .lpinf)
    (hlow : (E.num a.dtype).low ≤ (E.num a.dtype).big) (hr : ∀ t < n, ∀ j, InRange (E.num a.dtype) (data t j))
    (hn : 0 < n) (x : Pt R.F 1) {t : KdTree R.F 1 (Branch1 R.F 1)} (ht : TreeOf E m a.dtype n data T t) :
    ExactAt t x ∧ ∀ i, ((pyMetric 1 m).dist x (data i)).1 = pyRounded R m x (data i) := by
  obtain ⟨-, f, leaf, fuel, hf, ht⟩ := ht
  have hR : Representable (E.num a.dtype) f n ⟨E.std, .sliding, .maxLeafSize leaf, .fromSpace, 32⟩ :=
    ⟨hlow, fun t ht j => by rw [hf t ht]; exact hr t ht j, trivial, nofun⟩
  cases m with
  | l1 => exact ⟨exactAt_one_dim R.laws (axis_l1 R.laws) ht hR hn x, fun i => dist_l1_val R x (data i)⟩
  | l2Squared =>
    exact ⟨exactAt_one_dim R.laws (axis_l2Sq R.laws R.squareLaws) ht hR hn x, fun i => dist_l2_val R x (data i)⟩
  | lpinf => exact absurd rfl hm

/-- C138, arrays of numbers (one coordinate for each point): `search_knn` gives the `k` nearest rows, by the distances as
they are computed, whatever the coordinates. -/
theorem c138_knn_line {data : Nat → Fin 1 → R.F} (h : Made E P m n 1 a T) (hm : m ≠ .lpinf)
    (hdata : ∀ t < n, IsPoint a t (data t))
    (hlow : (E.num a.dtype).low ≤ (E.num a.dtype).big) (hr : ∀ t < n, ∀ j, InRange (E.num a.dtype) (data t j))
    (hv : Valid pts) (hp : Points pts q 1) (hdt : pts.dtype = a.dtype) (hq : 0 < q)
    {k : Nat} (hk : 0 < k) (hkn : k ≤ n) (hcap : q * k ≤ E.cap) (hcap' : E.cap < half64)
    (hbig : ∀ i < q, ∀ x : Pt R.F 1, IsPoint pts i x → ∀ t < n, pyRounded R m x (data t) < (E.num a.dtype).big.1) :
    KnnCalls E T a.dtype pts q k 1 fun x r => ∃ dist : Nat → R.F,
      (∀ t, (dist t).1 = pyRounded R m x (data t)) ∧ IsKnn n k dist r := by
  refine knn_rows_of_tree h hdata hv hp hdt hq hk hkn hcap hcap' _ fun t ht i hi x hx prior r hr' => ?_
  obtain ⟨h1, h2⟩ := line_rows hm hlow hr (by omega) x ht
  refine ⟨_, h2, (exact_rows ht (by omega) h1).1 (fun j hj => ?_) hk hr'⟩
  rw [R.lt_iff, h2 j]
  exact hbig i hi x hx j hj

/-- C138, arrays of numbers: `search_radius` gives exactly the rows whose computed distance is below the radius. -/
theorem c138_radius_line {data : Nat → Fin 1 → R.F} (h : Made E P m n 1 a T) (hm : m ≠ .lpinf)
    (hdata : ∀ t < n, IsPoint a t (data t))
    (hlow : (E.num a.dtype).low ≤ (E.num a.dtype).big) (hr : ∀ t < n, ∀ j, InRange (E.num a.dtype) (data t j))
    (hn : 0 < n) (hv : Valid pts) (hp : Points pts q 1) (hdt : pts.dtype = a.dtype)
    (radius : F) (sort : Option Bool) :
    RadiusCalls E T a.dtype pts q 1 radius sort fun x r => (∃ dist : Nat → R.F,
        (∀ t, (dist t).1 = pyRounded R m x (data t)) ∧ IsRadius n dist (E.narrow a.dtype radius) r) ∧
      (sort = some true → r.Pairwise fun a b => a.distance ≤ b.distance) := by
  refine radius_rows_of_tree h hdata hv hp hdt radius sort _ fun t ht i hi x hx => ?_
  obtain ⟨h1, h2⟩ := line_rows hm hlow hr hn x ht
  obtain ⟨g1, g2⟩ := (exact_rows ht hn h1).2 (E.narrow a.dtype radius) (sort.getD false)
  exact ⟨⟨_, h2, g1⟩, fun hs => g2 (by rw [hs]; rfl)⟩

/-- The number of roundings of one term of a sum: difference and absolute value, or difference and square. -/
def pyTerm : PyMetric → Nat
  | .l2Squared => 3
  | _ => 1

theorem upTo_rows {data : Nat → Fin d → R.F} {u : K} (hm : m ≠ .lpinf) (hu : R.Error u) (hu0 : 0 ≤ u) (hu1 : u ≤ 1)
    (hlow : (E.num a.dtype).low ≤ (E.num a.dtype).big) (hr : ∀ t < n, ∀ j, InRange (E.num a.dtype) (data t j))
    (hn : 0 < n) (x : Pt R.F d)
    (hsq : m = .l2Squared → ∀ i < n, ∀ j, R.SquareError u (x j - data i j).1)
    {t : KdTree R.F d (Branch1 R.F d)} (ht : TreeOf E m a.dtype n data T t) :
    ∃ f : Nat → Pt R.F d, (∀ i < n, f i = data i) ∧
    TrueUpTo t x n (fun i => pyDist m (R.exactPt x) (R.exactPt (f i))) ((1 - u) ^ (2 * d + pyTerm m))
      ((1 + u) ^ (2 * Spec.height T.tree.data.root + d + pyTerm m)) ((1 - u) ^ d) ((1 - u) ^ (d + pyTerm m))
      (E.num a.dtype).big.1 := by
  obtain ⟨hh, f, leaf, fuel, hf, ht⟩ := ht
  have hR : Representable (E.num a.dtype) f n ⟨E.std, .sliding, .maxLeafSize leaf, .fromSpace, 32⟩ :=
    ⟨hlow, fun t ht j => by rw [hf t ht]; exact hr t ht j, trivial, nofun⟩
  refine ⟨f, hf, ?_⟩
  rw [← hh]
  cases m with
  | l1 => exact c86_l1 hu hu0 hu1 ht hR hn x
  | l2Squared => exact c86_l2 hu hu0 hu1 ht hR hn x fun i hi j => by rw [hf i hi]; exact hsq rfl i hi j
  | lpinf => exact absurd rfl hm

/-- C138, any arrays: `search_knn` gives `k` different rows, and none of them is farther than a row that is missing by more
than the stated factor, which depends on the precision, the dimension and the height of the tree. -/
theorem c138_knn_close {data : Nat → Fin d → R.F} {u : K} (h : Made E P m n d a T) (hm : m ≠ .lpinf)
    (hdata : ∀ t < n, IsPoint a t (data t)) (hu : R.Error u) (hu0 : 0 ≤ u) (hu1 : u ≤ 1)
    (hlow : (E.num a.dtype).low ≤ (E.num a.dtype).big) (hr : ∀ t < n, ∀ j, InRange (E.num a.dtype) (data t j))
    (hv : Valid pts) (hp : Points pts q d) (hdt : pts.dtype = a.dtype) (hq : 0 < q)
    {k : Nat} (hk : 0 < k) (hkn : k ≤ n) (hcap : q * k ≤ E.cap) (hcap' : E.cap < half64)
    (hsq : m = .l2Squared → ∀ i < q, ∀ x : Pt R.F d, IsPoint pts i x → ∀ t < n, ∀ j, R.SquareError u (x j - data t j).1)
    (hbig : ∀ i < q, ∀ x : Pt R.F d, IsPoint pts i x → ∀ t < n,
      (1 + u) ^ (2 * Spec.height T.tree.data.root + d + pyTerm m) * pyDist m (R.exactPt x) (R.exactPt (data t)) <
        (1 - u) ^ d * (E.num a.dtype).big.1) :
    KnnCalls E T a.dtype pts q k d fun x r => (r.map Neighbor.index).Nodup ∧ (∀ y ∈ r, y.index < n) ∧
      ∀ y ∈ r, ∀ t < n, t ∉ r.map Neighbor.index →
        (1 - u) ^ (2 * d + pyTerm m) * pyDist m (R.exactPt x) (R.exactPt (data y.index)) ≤
          (1 + u) ^ (2 * Spec.height T.tree.data.root + d + pyTerm m) * pyDist m (R.exactPt x) (R.exactPt (data t)) := by
  refine knn_rows_of_tree h hdata hv hp hdt hq hk hkn hcap hcap' _ fun t ht i hi x hx prior r hr' => ?_
  obtain ⟨f, hf, h1⟩ := upTo_rows hm hu hu0 hu1 hlow hr (by omega) x (fun e => hsq e i hi x hx) ht
  obtain ⟨out, g1, -, g2, g3, g4⟩ := h1.knn (fun j hj => by rw [hf j hj]; exact hbig i hi x hx j hj) k prior hk
  obtain rfl := Outcome.ok.inj (hr'.symm.trans g1)
  refine ⟨g2, g3, fun y hy t' ht' hn' => ?_⟩
  have := g4 y hy t' ht' hn'
  rwa [hf _ (g3 y hy), hf _ ht'] at this

/-- C138, any arrays: `search_radius` gives rows that are hardly farther than the radius, and all rows that are closer by
the stated factor. -/
theorem c138_radius_close {data : Nat → Fin d → R.F} {u : K} (h : Made E P m n d a T) (hm : m ≠ .lpinf)
    (hdata : ∀ t < n, IsPoint a t (data t)) (hu : R.Error u) (hu0 : 0 ≤ u) (hu1 : u ≤ 1)
    (hlow : (E.num a.dtype).low ≤ (E.num a.dtype).big) (hr : ∀ t < n, ∀ j, InRange (E.num a.dtype) (data t j))
    (hn : 0 < n) (hv : Valid pts) (hp : Points pts q d) (hdt : pts.dtype = a.dtype)
    (hsq : m = .l2Squared → ∀ i < q, ∀ x : Pt R.F d, IsPoint pts i x → ∀ t < n, ∀ j, R.SquareError u (x j - data t j).1)
    (radius : F) (sort : Option Bool) :
    RadiusCalls E T a.dtype pts q d radius sort fun x r => (r.map Neighbor.index).Nodup ∧
      (∀ y ∈ r, y.index < n ∧ (1 - u) ^ (d + pyTerm m) * pyDist m (R.exactPt x) (R.exactPt (data y.index)) <
        (E.narrow a.dtype radius).1) ∧
      ∀ t < n, (1 + u) ^ (2 * Spec.height T.tree.data.root + d + pyTerm m) *
          pyDist m (R.exactPt x) (R.exactPt (data t)) < (1 - u) ^ d * (E.narrow a.dtype radius).1 →
        ∃ y ∈ r, y.index = t := by
  refine radius_rows_of_tree h hdata hv hp hdt radius sort _ fun t ht i hi x hx => ?_
  obtain ⟨f, hf, h1⟩ := upTo_rows hm hu hu0 hu1 hlow hr hn x (fun e => hsq e i hi x hx) ht
  obtain ⟨g1, g2⟩ := h1.radius E.sorter (E.narrow a.dtype radius) [] (sort.getD false)
  refine ⟨?_, fun y hy => ?_, fun t' ht' hlt => g2 t' ht' (by rw [hf t' ht']; exact hlt)⟩
  · obtain ⟨-, f', leaf, fuel, -, ht⟩ := ht
    exact (c44_radius ht x E.sorter (E.narrow a.dtype radius) [] (sort.getD false)).1
  · obtain ⟨e1, e2⟩ := g1 y hy
    rw [hf _ e1] at e2
    exact ⟨e1, e2⟩

/-- C138, queries that are rows of the array: with every metric, `Metric.LPInf` included, the first neighbor is at
distance zero, the row itself is among the `k` neighbors unless these are all at distance zero, and it is found with
every positive radius. -/
theorem c138_self {data : Nat → Fin d → R.F} (h : Made E P m n d a T) (hdata : ∀ t < n, IsPoint a t (data t))
    (hlow : (E.num a.dtype).low ≤ (E.num a.dtype).big) (hpos : 0 < (E.num a.dtype).big)
    (hr : ∀ t < n, ∀ j, InRange (E.num a.dtype) (data t j))
    (hv : Valid pts) (hp : Points pts q d) (hdt : pts.dtype = a.dtype)
    (hin : ∀ i < q, ∀ x : Pt R.F d, IsPoint pts i x → ∃ t < n, data t = x) :
    (∀ k, 0 < q → 0 < k → k ≤ n → q * k ≤ E.cap → E.cap < half64 →
      (∀ i < q, ∀ x : Pt R.F d, IsPoint pts i x → ∀ t < n, (pyMetric d m).dist x (data t) < (E.num a.dtype).big) →
      KnnCalls E T a.dtype pts q k d fun x r => (∀ y, r[0]? = some y → y.index < n ∧ y.distance = 0) ∧
        ∀ t < n, data t = x → ⟨t, 0⟩ ∈ r ∨ ∀ y ∈ r, y.index < n ∧ y.distance = 0) ∧
    ∀ radius sort, 0 < E.narrow a.dtype radius → RadiusCalls E T a.dtype pts q d radius sort fun x r =>
      ∀ t < n, data t = x → ⟨t, 0⟩ ∈ r := by
  have key : ∀ i < q, ∀ x : Pt R.F d, IsPoint pts i x → ∀ t, TreeOf E m a.dtype n data T t →
      ∃ f : Nat → Pt R.F d, (∀ i < n, f i = data i) ∧
        Found t x f n (fun i => (pyMetric d m).dist x (f i)) (E.num a.dtype).big := by
    rintro i hi x hx t ⟨-, f, leaf, fuel, hf, ht⟩
    have hR : Representable (E.num a.dtype) f n ⟨E.std, .sliding, .maxLeafSize leaf, .fromSpace, 32⟩ :=
      ⟨hlow, fun t ht j => by rw [hf t ht]; exact hr t ht j, trivial, nofun⟩
    obtain ⟨t0, ht0, e0⟩ := hin i hi x hx
    have hq' : ∃ i < n, f i = x := ⟨t0, ht0, by rw [hf t0 ht0, e0]⟩
    refine ⟨f, hf, ?_⟩
    cases m with
    | l1 => exact (c90_l1 ht hR hpos hq').1
    | l2Squared => exact c90_l2 ht hR hpos hq'
    | lpinf => exact c90_lpinf ht hR hpos hq'
  constructor
  · intro k hq hk hkn hcap hcap' hbig
    refine knn_rows_of_tree h hdata hv hp hdt hq hk hkn hcap hcap' _ fun t ht i hi x hx prior r hr' => ?_
    obtain ⟨f, hf, hF⟩ := key i hi x hx t ht
    obtain ⟨L, tail, h1, -, -, -, h5, ⟨y, L', rfl, h7⟩, h8⟩ :=
      hF.knn (fun j hj => by rw [hf j hj]; exact hbig i hi x hx j hj) k prior hk
    obtain rfl := Outcome.ok.inj (hr'.symm.trans h1)
    refine ⟨fun z hz => ?_, fun t ht e => ?_⟩
    · rw [List.cons_append, List.getElem?_cons_zero, Option.some.injEq] at hz
      subst hz
      exact ⟨(h5 _ List.mem_cons_self).1, h7⟩
    · rcases h8 t ht (by rw [hf t ht, e]) with g | ⟨rfl, g⟩
      · exact .inl (List.mem_append_left _ g)
      · rw [List.append_nil]
        exact .inr fun z hz => ⟨(h5 z hz).1, g z hz⟩
  · intro radius sort hrad
    refine radius_rows_of_tree h hdata hv hp hdt radius sort _ fun t ht i hi x hx t' ht' e => ?_
    obtain ⟨f, hf, hF⟩ := key i hi x hx t ht
    exact hF.radius _ _ _ _ hrad t' ht' (by rw [hf t' ht', e])

end Rounded

/-! ## Examples -/

/-- Single precision, with any standard library. Python's floats are rounded to `float`. -/
def floatEnv (S : Std) (sorter : StdSort (Neighbor F32)) : PyEnv F32 ℚ := ⟨fun _ => floatNum, S, sorter, 1000, fun _ => lit⟩

theorem pyC_rows : ∀ t < 3, IsPoint pyC t (pyPts t) := by
  unfold IsPoint
  decide +kernel

theorem pyC_valid : Valid pyC := valid_of_two rfl rfl (by decide +kernel) (by decide +kernel)

theorem pyC_points : Points pyC 3 2 := by
  unfold Points
  decide +kernel

theorem pyPts_grid : ∀ t < 3, OnGrid (R := ieee 23 (-149)) (2 ^ (0 : ℤ)) 9 (pyPts t) := by
  intro t ht
  refine digits_grid fun j => ?_
  interval_cases t <;> fin_cases j
  exacts [⟨2, by norm_num, rfl⟩, ⟨1, by norm_num, rfl⟩, ⟨4, by norm_num, rfl⟩, ⟨3, by norm_num, rfl⟩,
    ⟨8, by norm_num, rfl⟩, ⟨7, by norm_num, rfl⟩]

theorem pyPts_range : ∀ t < 3, ∀ j, InRange floatNum (pyPts t j) := by
  unfold InRange
  decide +kernel

/-- The array of the Python tests: with every standard library, every leaf size and every metric the constructor accepts
it. -/
theorem pyC_made (S : Std) (sorter : StdSort (Neighbor F32)) (P : DType → Platform F32) (m : PyMetric) {leaf : Nat}
    (h1 : 1 ≤ leaf) (h2 : leaf < 2 ^ 31) :
    ∃ fuel T, PyTree.make (floatEnv S sorter) pyC m leaf fuel = .ok T ∧
      Made (floatEnv S sorter) P m 3 2 pyC T := by
  refine c119_make (l := lit 0) (u := lit 9) pyC_valid pyC_points (.inl rfl)
    (splitSafe_rounding (R := ieee 23 (-149)) (by decide +kernel)) (by omega) (by omega) h1 h2 ?_ ?_
  · intro i hi x hx
    rw [isPoint_unique hx (pyC_rows i hi)]
    clear hx
    revert i
    decide +kernel
  · exact ⟨by show floatNum.low ≤ lit 9; decide +kernel, by show lit 0 ≤ floatNum.big; decide +kernel⟩

theorem pyC_grid (hX : (ieee 23 (-149)).ExactUpTo (2 ^ (0 : ℤ)) (2 ^ (23 + 1))) :
    (ieee 23 (-149)).ExactUpTo (((2 : ℚ) ^ (0 : ℤ)) ^ 2) (2 ^ (23 + 1)) := by
  rw [zpow_zero, one_pow, ← zpow_zero (2 : ℚ)]
  exact hX

theorem pyC_unique : ∀ i < 3, ∀ x : Pt F32 2, IsPoint pyC i x → x = pyPts i :=
  fun i hi _ hx => isPoint_unique hx (pyC_rows i hi)

/-- The squared distances of the rows. -/
def pyTable : Nat → Nat → F32
  | 0, 0 => lit 0
  | 0, 1 => lit 8
  | 0, _ => lit 72
  | 1, 0 => lit 8
  | 1, 1 => lit 0
  | 1, _ => lit 32
  | _, 0 => lit 72
  | _, 1 => lit 32
  | _, _ => lit 0

theorem pyTable_eq {i : Nat} (hi : i < 3) {dist : Nat → F32}
    (h : ∀ t < 3, (dist t).1 = pyDist .l2Squared ((ieee 23 (-149)).exactPt (pyPts i)) ((ieee 23 (-149)).exactPt (pyPts t))) :
    ∀ t < 3, dist t = pyTable i t := by
  have key : ∀ i < 3, ∀ t < 3, l2Sq ((ieee 23 (-149)).exactPt (pyPts i)) ((ieee 23 (-149)).exactPt (pyPts t)) =
      (pyTable i t).1 := by decide +kernel
  exact fun t ht => Subtype.ext ((h t ht).trans (key i hi t ht))

/-- If all distances differ there is only one answer. -/
theorem isKnn_unique {α : Type} [LinearOrder α] {n k : Nat} {g : Nat → α} {r r' : List (Neighbor α)}
    (hg : ∀ i < n, ∀ j < n, g i = g j → i = j) (h : IsKnn n k g r) (h' : IsKnn n k g r') : r = r' := by
  have hm : ∀ {r : List (Neighbor α)}, IsKnn n k g r → ∀ y ∈ r, y.index < n ∧ y.distance = g y.index := by
    intro r h y hy
    obtain ⟨rest, hp, -⟩ := h.rest
    have := hp.mem_iff.1 (List.mem_append_left rest hy)
    simp only [Spec.all, List.mem_map, List.mem_range] at this
    obtain ⟨i, hi, rfl⟩ := this
    exact ⟨hi, rfl⟩
  have hd := h.map_distance.trans h'.map_distance.symm
  refine List.ext_getElem (by rw [h.length, h'.length]) fun i h1 h2 => ?_
  have e : r[i].distance = r'[i].distance := by
    have := congrArg (fun l : List α => l[i]?) hd
    simpa [h1, h2] using this
  obtain ⟨a1, a2⟩ := hm h _ (List.getElem_mem h1)
  obtain ⟨b1, b2⟩ := hm h' _ (List.getElem_mem h2)
  have := hg _ a1 _ b1 (by rw [← a2, ← b2, e])
  cases hx : r[i]
  cases hy : r'[i]
  rw [hx, hy] at this e
  simp only at this e
  rw [this, e]

section Example
variable {S : Std} {sorter : StdSort (Neighbor F32)} {P : DType → Platform F32} {T : PyTree F32}

theorem pyC_knn (h : Made (floatEnv S sorter) P .l2Squared 3 2 pyC T) {k : Nat} (hk : 0 < k) (hk3 : k ≤ 3) :
    KnnCalls (floatEnv S sorter) T .float32 pyC 3 k 2 fun x r => ∀ i < 3, x = pyPts i → IsKnn 3 k (pyTable i) r := by
  have hX := ieee_exactUpTo 23 (-149) (k := 0) (by norm_num)
  have key := c138_knn_grid (k := k) (pts := pyC) (q := 3) (c := 2 ^ (0 : ℤ)) (B := 9) (L := 2 ^ (23 + 1)) h nofun
    pyC_rows (by positivity) hX (pyC_grid hX)
    (by norm_num) (by show floatNum.low ≤ floatNum.big; decide +kernel) pyPts_range pyC_valid
    pyC_points rfl (by norm_num) hk hk3 (by show 3 * k ≤ 1000; omega) (by show 1000 < half64; decide +kernel) pyPts_grid
    (fun i hi x hx => pyC_unique i hi x hx ▸ pyPts_grid i hi)
    (fun i hi x hx => by
      rw [pyC_unique i hi x hx]
      clear hx
      revert i
      show ∀ i < 3, ∀ t < 3, l2Sq ((ieee 23 (-149)).exactPt (pyPts i)) ((ieee 23 (-149)).exactPt (pyPts t)) <
        floatNum.big.1
      decide +kernel)
  intro ta tn te s kw hkw
  obtain ⟨out, h1, h2, h3, h4, h5, h6⟩ := key ta tn te s kw hkw
  refine ⟨out, h1, h2, h3, h4, h5, fun i hi x hx => ?_⟩
  obtain ⟨r, ⟨dist, hd, g1⟩, g2⟩ := h6 i hi x hx
  refine ⟨r, fun j hj e => ?_, g2⟩
  subst e
  exact g1.congr (pyTable_eq hj hd)

theorem pyC_radius (h : Made (floatEnv S sorter) P .l2Squared 3 2 pyC T) (radius : ℚ) (sort : Option Bool) :
    RadiusCalls (floatEnv S sorter) T .float32 pyC 3 2 radius sort fun x r =>
      ∀ i < 3, x = pyPts i → IsRadius 3 (pyTable i) (lit radius) r := by
  have hX := ieee_exactUpTo 23 (-149) (k := 0) (by norm_num)
  have key := c138_radius_grid (pts := pyC) (q := 3) (c := 2 ^ (0 : ℤ)) (B := 9) (L := 2 ^ (23 + 1)) h nofun
    pyC_rows (by positivity) hX (pyC_grid hX)
    (by norm_num) (by show floatNum.low ≤ floatNum.big; decide +kernel) pyPts_range (by norm_num) pyC_valid
    pyC_points rfl pyPts_grid (fun i hi x hx => pyC_unique i hi x hx ▸ pyPts_grid i hi) radius sort
  intro nns ta tr te tx s kw hkw
  obtain ⟨out, h1, h2, h3⟩ := key nns ta tr te tx s kw hkw
  refine ⟨out, h1, h2, fun i hi x hx => ?_⟩
  obtain ⟨r, g1, ⟨dist, hd, g2⟩, -⟩ := h3 i hi x hx
  refine ⟨r, g1, fun j hj e => ?_⟩
  subst e
  exact g2.congr (pyTable_eq hj hd)

theorem pyTable_injective : ∀ i < 3, ∀ j < 3, ∀ k < 3, pyTable i j = pyTable i k → j = k := by
  decide +kernel

/-- The neighbors of row `i` in the order of their distances. -/
def pyNearest : Nat → List (Neighbor F32)
  | 0 => [⟨0, lit 0⟩, ⟨1, lit 8⟩, ⟨2, lit 72⟩]
  | 1 => [⟨1, lit 0⟩, ⟨0, lit 8⟩, ⟨2, lit 32⟩]
  | _ => [⟨2, lit 0⟩, ⟨1, lit 32⟩, ⟨0, lit 72⟩]

theorem pyNearest_isKnn : ∀ i < 3, ∀ k ≤ 3, IsKnn 3 k (pyTable i) ((pyNearest i).take k) := by
  intro i hi k hk
  refine ⟨?_, ?_, (pyNearest i).drop k, ?_, ?_⟩ <;> revert i k <;> decide +kernel

/-- C136: examples/python/kd_tree.py:36-83, with every standard library, for every leaf size (the program uses 1) and for
trees loaded from a file: what `search_knn` with one and two neighbors and `search_radius` with `metric(2.5)` and 25 find
for the rows themselves. -/
theorem c136_python (h : Made (floatEnv S sorter) P .l2Squared 3 2 pyC T) (ta : Option Bool) (tr : Bool) :
    (∃ out, T.callKnn (floatEnv S sorter) [.array (.scalars pyC) ta, .int 1] [] = .ok out ∧ out.shape = [3] ∧
      out.buf = [⟨0, lit 0⟩, ⟨1, lit 0⟩, ⟨2, lit 0⟩]) ∧
    (∃ out, T.callKnn (floatEnv S sorter) [.array (.scalars pyC) ta, .int 2] [] = .ok out ∧ out.shape = [3, 2] ∧
      out.buf = [⟨0, lit 0⟩, ⟨1, lit 8⟩, ⟨1, lit 0⟩, ⟨0, lit 8⟩, ⟨2, lit 0⟩, ⟨1, lit 32⟩]) ∧
    T.callRadius (floatEnv S sorter) [.array (.scalars pyC) ta, .float (25 / 4) tr] [] =
      .ok [[⟨0, lit 0⟩], [⟨1, lit 0⟩], [⟨2, lit 0⟩]] ∧
    ∃ r0 r1, T.callRadius (floatEnv S sorter) [.array (.scalars pyC) ta, .float 25 tr] [] = .ok [r0, r1, [⟨2, lit 0⟩]] ∧
      r0.Perm [⟨0, lit 0⟩, ⟨1, lit 8⟩] ∧ r1.Perm [⟨0, lit 8⟩, ⟨1, lit 0⟩] := by
  have knn : ∀ k : Nat, 0 < k → k ≤ 3 → ∃ out, T.callKnn (floatEnv S sorter) [.array (.scalars pyC) ta, .int k] [] = .ok out ∧
      out.shape = (if k = 1 then [3] else [3, k]) ∧ out.buf.length = 3 * k ∧
      ∀ i < 3, ∀ j < k, out.buf[i * k + j]? = (pyNearest i)[j]? := by
    intro k hk hk3
    obtain ⟨out, h1, -, h3, -, h5, h6⟩ := pyC_knn h hk hk3 ta none false 2 [] (by simp [knnArgs])
    refine ⟨out, h1, h3.trans ?_, h5, fun i hi j hj => ?_⟩
    · rw [if_pos (by decide +kernel : pyC.isC = true)]
    · obtain ⟨r, g1, -, g3, -⟩ := h6 i hi _ (pyC_rows i hi)
      rw [g3 j hj, isKnn_unique (pyTable_injective i hi) (g1 i hi rfl) (pyNearest_isKnn i hi k hk3),
        List.getElem?_take_of_lt hj]
  have radius : ∀ r : ℚ, ∃ r0 r1 r2, T.callRadius (floatEnv S sorter) [.array (.scalars pyC) ta, .float r tr] [] =
      .ok [r0, r1, r2] ∧ IsRadius 3 (pyTable 0) (lit r) r0 ∧ IsRadius 3 (pyTable 1) (lit r) r1 ∧
        IsRadius 3 (pyTable 2) (lit r) r2 := by
    intro r
    obtain ⟨out, h1, h2, h3⟩ := pyC_radius h r none none ta tr false false 2 [] (by simp [radiusArgs])
    match out, h2 with
    | [r0, r1, r2], _ =>
      refine ⟨r0, r1, r2, h1, ?_, ?_, ?_⟩
      · obtain ⟨x, e, g⟩ := h3 0 (by norm_num) _ (pyC_rows 0 (by norm_num))
        cases e
        exact g 0 (by norm_num) rfl
      · obtain ⟨x, e, g⟩ := h3 1 (by norm_num) _ (pyC_rows 1 (by norm_num))
        cases e
        exact g 1 (by norm_num) rfl
      · obtain ⟨x, e, g⟩ := h3 2 (by norm_num) _ (pyC_rows 2 (by norm_num))
        cases e
        exact g 2 (by norm_num) rfl
  refine ⟨?_, ?_, ?_, ?_⟩
  · obtain ⟨out, h1, h2, h3, h4⟩ := knn 1 (by norm_num) (by norm_num)
    refine ⟨out, h1, h2, ?_⟩
    match hb : out.buf, h3 with
    | [x, y, z], _ =>
      rw [hb] at h4
      have e0 := h4 0 (by norm_num) 0 (by norm_num)
      have e1 := h4 1 (by norm_num) 0 (by norm_num)
      have e2 := h4 2 (by norm_num) 0 (by norm_num)
      cases e0; cases e1; cases e2
      rfl
  · obtain ⟨out, h1, h2, h3, h4⟩ := knn 2 (by norm_num) (by norm_num)
    refine ⟨out, h1, h2, ?_⟩
    match hb : out.buf, h3 with
    | [x, y, z, u, v, w], _ =>
      rw [hb] at h4
      have e0 := h4 0 (by norm_num) 0 (by norm_num)
      have e1 := h4 0 (by norm_num) 1 (by norm_num)
      have e2 := h4 1 (by norm_num) 0 (by norm_num)
      have e3 := h4 1 (by norm_num) 1 (by norm_num)
      have e4 := h4 2 (by norm_num) 0 (by norm_num)
      have e5 := h4 2 (by norm_num) 1 (by norm_num)
      cases e0; cases e1; cases e2; cases e3; cases e4; cases e5
      rfl
  · obtain ⟨r0, r1, r2, h1, g0, g1, g2⟩ := radius (25 / 4)
    rw [h1]
    have f : ∀ i < 3, ((all 3 (pyTable i)).filter fun x => decide (x.distance < lit (25 / 4))) = [⟨i, lit 0⟩] := by
      decide +kernel
    unfold IsRadius at g0 g1 g2
    rw [f _ (by norm_num), List.perm_singleton] at g0 g1 g2
    rw [g0, g1, g2]
  · obtain ⟨r0, r1, r2, h1, g0, g1, g2⟩ := radius 25
    have f0 : ((all 3 (pyTable 0)).filter fun x => decide (x.distance < lit 25)) = [⟨0, lit 0⟩, ⟨1, lit 8⟩] := by
      decide +kernel
    have f1 : ((all 3 (pyTable 1)).filter fun x => decide (x.distance < lit 25)) = [⟨0, lit 8⟩, ⟨1, lit 0⟩] := by
      decide +kernel
    have f2 : ((all 3 (pyTable 2)).filter fun x => decide (x.distance < lit 25)) = [⟨2, lit 0⟩] := by
      decide +kernel
    unfold IsRadius at g0 g1 g2
    rw [f2, List.perm_singleton] at g2
    exact ⟨r0, r1, by rw [h1, g2], f0 ▸ g0, f1 ▸ g1⟩

/-- The constructor gives such a tree. -/
example (S : Std) (sorter : StdSort (Neighbor F32)) (P : DType → Platform F32) :
    ∃ fuel T, PyTree.make (floatEnv S sorter) pyC .l2Squared 1 fuel = .ok T ∧
      T.callRadius (floatEnv S sorter) [.array (.scalars pyC) none, .float (25 / 4) true] [] =
        .ok [[⟨0, lit 0⟩], [⟨1, lit 0⟩], [⟨2, lit 0⟩]] := by
  obtain ⟨fuel, T, h1, h2⟩ := pyC_made S sorter P .l2Squared (leaf := 1) le_rfl (by norm_num)
  exact ⟨fuel, T, h1, (c136_python h2 none true).2.2.1⟩

/-- Three numbers that are not on a small grid. -/
def lineArr : NArray F32 := ⟨.float32, [3, 1], [1, 1], 0, [lit (1 / 10), lit 3000000, lit (-7 / 3)], true, true⟩

/-- Its rows. -/
def lineRows (i : Nat) : Fin 1 → F32 := ![lit (([1 / 10, 3000000, -7 / 3] : List ℚ).getD i 0)]

/-- The hypotheses of the other theorems of C138 are met: by the rows of an array as queries, by an array of numbers, and by
trees of bounded height. -/
example (P : DType → Platform F32) : ∃ T T', PyTree.make (floatEnv Ref.std (Ref.sorter _)) pyC .lpinf 1 20 = .ok T ∧
    PyTree.make (floatEnv Ref.std (Ref.sorter _)) lineArr .l2Squared 1 20 = .ok T' ∧
    RadiusCalls (floatEnv Ref.std (Ref.sorter _)) T .float32 pyC 3 2 1 none
      (fun x r => ∀ t < 3, pyPts t = x → ⟨t, 0⟩ ∈ r) ∧
    KnnCalls (floatEnv Ref.std (Ref.sorter _)) T' .float32 lineArr 3 2 1 (fun x r => ∃ dist : Nat → F32,
      (∀ t, (dist t).1 = roundedL2 (ieee 23 (-149)) x (lineRows t)) ∧ IsKnn 3 2 dist r) ∧
    ∃ T, PyTree.make (floatEnv Ref.std (Ref.sorter _)) pyC .l1 1 20 = .ok T ∧
      KnnCalls (floatEnv Ref.std (Ref.sorter _)) T .float32 pyC 3 2 2 fun x r => (r.map Neighbor.index).Nodup ∧
        (∀ y ∈ r, y.index < 3) ∧ ∀ y ∈ r, ∀ t < 3, t ∉ r.map Neighbor.index →
          (1 - 1 / 2 ^ 24) ^ 5 * l1 ((ieee 23 (-149)).exactPt x) ((ieee 23 (-149)).exactPt (pyPts y.index)) ≤
            (1 + 1 / 2 ^ 24) ^ (2 * Spec.height T.tree.data.root + 3) *
              l1 ((ieee 23 (-149)).exactPt x) ((ieee 23 (-149)).exactPt (pyPts t)) := by
  have hlow : floatNum.low ≤ floatNum.big := by decide +kernel
  obtain ⟨T, h1, -⟩ := Call.exists_of_check (x := PyTree.make (floatEnv Ref.std (Ref.sorter _)) pyC .lpinf 1 20)
    (p := fun _ => true) (by decide +kernel)
  obtain ⟨T', h2, -⟩ := Call.exists_of_check (x := PyTree.make (floatEnv Ref.std (Ref.sorter _)) lineArr .l2Squared 1 20)
    (p := fun _ => true) (by decide +kernel)
  obtain ⟨T1, h3, h4⟩ := Call.exists_of_check (x := PyTree.make (floatEnv Ref.std (Ref.sorter _)) pyC .l1 1 20)
    (p := fun T => decide (Spec.height T.tree.data.root ≤ 3)) (by decide +kernel)
  have hline : Valid lineArr := valid_of_two rfl rfl (by decide +kernel) (by decide +kernel)
  have hlp : Points lineArr 3 1 := by
    unfold Points
    decide +kernel
  have hlr : ∀ t < 3, IsPoint lineArr t (lineRows t) := by
    unfold IsPoint
    decide +kernel
  refine ⟨T, T', h1, h2, ?_, ?_, T1, h3, ?_⟩
  · exact (c138_self (P := P)
      (.make pyC_valid pyC_points h1) pyC_rows hlow (by show 0 < floatNum.big; decide +kernel)
      pyPts_range pyC_valid pyC_points rfl (fun i hi x hx => ⟨i, hi, (pyC_unique i hi x hx).symm⟩)).2 1 none
      (by show 0 < lit 1; decide +kernel)
  · exact c138_knn_line (P := P) (.make hline hlp h2) nofun
      hlr hlow (by unfold InRange; show ∀ t < 3, ∀ j, floatNum.low ≤ _ ∧ _ ≤ floatNum.big; decide +kernel) hline hlp rfl
      (by norm_num) (by norm_num) (by norm_num) (by show 3 * 2 ≤ 1000; norm_num) (by show 1000 < half64; decide +kernel)
      (fun i hi x hx => by
        rw [isPoint_unique hx (hlr i hi)]
        clear hx
        revert i
        show ∀ i < 3, ∀ t < 3, roundedL2 (ieee 23 (-149)) (lineRows i) (lineRows t) < floatNum.big.1
        decide +kernel)
  · refine c138_knn_close (P := P)
      (.make pyC_valid pyC_points h3) nofun pyC_rows (ieee_relative 23 (-149)) (by positivity) (by norm_num) hlow
      pyPts_range pyC_valid pyC_points rfl (by norm_num) (by norm_num) (by norm_num) (by show 3 * 2 ≤ 1000; norm_num)
      (by show 1000 < half64; decide +kernel) nofun (fun i hi x hx t ht => ?_)
    rw [pyC_unique i hi x hx]
    have hh := of_decide_eq_true h4
    have hpow : (1 + (1 / 2 ^ (23 + 1) : ℚ)) ^ (2 * Spec.height T1.tree.data.root + 2 + 1) ≤ (1 + 1 / 2 ^ (23 + 1)) ^ 9 :=
      pow_le_pow_right₀ (by norm_num) (by omega)
    have hd : ∀ i < 3, ∀ t < 3, 0 ≤ l1 ((ieee 23 (-149)).exactPt (pyPts i)) ((ieee 23 (-149)).exactPt (pyPts t)) ∧
        (1 + (1 / 2 ^ (23 + 1) : ℚ)) ^ 9 * l1 ((ieee 23 (-149)).exactPt (pyPts i)) ((ieee 23 (-149)).exactPt (pyPts t)) <
          (1 - 1 / 2 ^ (23 + 1)) ^ 2 * floatNum.big.1 := by decide +kernel
    exact lt_of_le_of_lt (mul_le_mul_of_nonneg_right hpow (hd i hi t ht).1) (hd i hi t ht).2

end Example

end Pico.Props
