import Verif.Props.ApproxError
import Verif.Props.PyFloat

/-!
# C140: approximate searches that are rounded, in C++ and from Python

C44 and C138 for the searches with a ratio. `1 / e` and `dist * (1 / e)` are the rounded operations of the visitors, so the
stored distance is `dist * (1 / e)`.
-/

set_option linter.unusedSectionVars false

namespace Pico.Props

open Pico Spec Pico.Bind Gtest

/-! ## Any arithmetic, any metric -/

section Genuine
variable {α : Type} [LinearOrder α] [Zero α] [One α] [Add α] [Sub α] [Mul α] [Div α] {d : Nat} {β : Type}
  {tag : SpaceTag α d β} {M : Metric α d} {N : Num α} {pts : Nat → Pt α d} {n : Nat} {o : BuildOpts α d} {fuel : Nat}
  {T : KdTree α d β}

/-- C140 (one neighbor): if the stored distance is not the largest value, the neighbor is a point, with its computed
distance times the computed inverse of the ratio. -/
theorem c140_nn_genuine (h : KdTree.make tag M N pts n o fuel = .ok T) (q : Pt α d) (e : α) (nn : Neighbor α)
    (hfound : (T.searchNnApprox q e nn).distance ≠ N.big) :
    (T.searchNnApprox q e nn).index < n ∧
      (T.searchNnApprox q e nn).distance = M.dist q (pts (T.searchNnApprox q e nn).index) * (1 / e) ∧
      (T.searchNnApprox q e nn).distance < N.big := by
  obtain ⟨vis, _, hlt, he⟩ := traversal_any h q (approxNnVisitor e) (nnInit T.num nn)
  obtain ⟨_, _, hN, _, _, _⟩ := KdTree.make_ok h
  have he' : T.searchNnApprox q e nn = visitAll nnVisitor (fun i => M.dist q (pts i) * (1 / e)) vis (nnInit T.num nn) := he
  rw [he'] at hfound ⊢
  rcases nn_visitAll (fun i => M.dist q (pts i) * (1 / e)) vis (nnInit T.num nn) with
    ⟨h1, _⟩ | ⟨i, hi, h1, h2, _⟩
  · rw [h1] at hfound
    exact absurd (by rw [← hN]; rfl) hfound
  · rw [h1]
    exact ⟨hlt i hi, rfl, by rw [← hN]; exact h2⟩

/-- C140 (k neighbors): different points with such distances, in order; should stored distances reach the largest value,
entries without meaning follow and the last of them has that value. -/
theorem c140_knn_genuine (h : KdTree.make tag M N pts n o fuel = .ok T) (q : Pt α d) (e : α) (k : Nat)
    (prior : List (Neighbor α)) (hk : 0 < k) (hn : 0 < n) :
    ∃ L tail, T.searchKnnApprox q k e prior = .ok (L ++ tail) ∧ (L ++ tail).length = min k n ∧
      L.Pairwise (fun a b => a.distance ≤ b.distance) ∧ (L.map Neighbor.index).Nodup ∧
      (∀ a ∈ L, a.index < n ∧ a.distance = M.dist q (pts a.index) * (1 / e) ∧ a.distance < N.big) ∧
      (∀ x, tail.getLast? = some x → x.distance = N.big) := by
  have hTn : T.n = n := (KdTree.make_ok h).2.2.2.2.1
  have hres := resize_length (min k T.n) prior
  obtain ⟨init, hi, hlen, hlast, _, _, hinv⟩ := knnInit_inv T.num (KdTree.resize (min k T.n) prior) (by rw [hres]; omega)
  obtain ⟨vis, hnd, hlt, he⟩ := traversal_any h q (approxKnnVisitor T.num e) ⟨init, 0⟩
  obtain ⟨_, _, hN, _, _, _⟩ := KdTree.make_ok h
  set dist := fun i => M.dist q (pts i) * (1 / e) with hdist
  have he' : T.searchNearest q (approxKnnVisitor T.num e) ⟨init, 0⟩ = visitAll (knnVisitor T.num) dist vis ⟨init, 0⟩ := he
  rw [knn_visitAll_filter T.num dist init hlast vis hinv] at he'
  set vis' := vis.filter fun i => decide (dist i < T.num.big) with hvis'
  obtain ⟨L, R, hL⟩ := knn_visitAll T.num dist init hlast vis'
    (fun i hi => by simpa using (List.mem_filter.1 hi).2) hinv
  rw [List.nil_append] at hL
  refine ⟨L, init.drop L.length, ?_, ?_, hL.sorted, ?_, ?_, ?_⟩
  · unfold KdTree.searchKnnApprox KdTree.searchKnnApproxRange
    rw [hi]
    simp only [Outcome.bind, Outcome.ok.injEq]
    rw [he', hL.buf]
  · have := hL.le
    rw [List.length_append, List.length_drop]
    omega
  · have h1 : ((L ++ R).map Neighbor.index).Perm vis' := by
      have := hL.perm.map Neighbor.index
      simpa [Function.comp_def] using this
    have h3 := h1.nodup_iff.2 (hnd.filter _)
    rw [List.map_append] at h3
    exact (List.nodup_append.1 h3).1
  · intro a ha
    have := hL.perm.subset (List.mem_append_left R ha)
    obtain ⟨i, hi, rfl⟩ := List.mem_map.1 this
    refine ⟨hlt i (List.mem_filter.1 hi).1, rfl, ?_⟩
    rw [← hN]
    exact hL.small _ ha
  · intro x hx
    obtain ⟨y, hy, hyd⟩ := hlast
    rw [List.getLast?_drop] at hx
    split_ifs at hx
    rw [hy] at hx
    rw [← hN, ← hyd]
    simp only [Option.some.injEq] at hx
    rw [hx]

/-- C140 (radius): different points with such distances, below the stored radius, and sorted if that was asked for. -/
theorem c140_radius_genuine (h : KdTree.make tag M N pts n o fuel = .ok T) (q : Pt α d)
    (sorter : StdSort (Neighbor α)) (r e : α) (prior : List (Neighbor α)) (sort : Bool) :
    ((T.searchRadiusApprox sorter q r e prior sort).map Neighbor.index).Nodup ∧
    (∀ a ∈ T.searchRadiusApprox sorter q r e prior sort,
      a.index < n ∧ a.distance = M.dist q (pts a.index) * (1 / e) ∧ a.distance < r * (1 / e)) ∧
    (sort = true →
      (T.searchRadiusApprox sorter q r e prior sort).Pairwise fun a b => a.distance ≤ b.distance) := by
  obtain ⟨vis, hnd, hlt, he⟩ := traversal_any h q (approxRadiusVisitor e r) (radiusInit prior)
  have he' : T.searchNearest q (approxRadiusVisitor e r) (radiusInit prior) =
      visitAll (radiusVisitor (r * (1 / e))) (fun i => M.dist q (pts i) * (1 / e)) vis (radiusInit prior) := he
  rw [radius_visitAll] at he'
  have hperm : (T.searchRadiusApprox sorter q r e prior sort).Perm
      ((vis.map fun i => (⟨i, M.dist q (pts i) * (1 / e)⟩ : Neighbor α)).filter
        fun x => decide (x.distance < r * (1 / e))) := by
    unfold KdTree.searchRadiusApprox
    dsimp only
    rw [he']
    cases sort with
    | false => exact List.Perm.refl _
    | true => exact sorter.sort_perm _ _ strictWeak_neighborLt
  refine ⟨?_, ?_, ?_⟩
  · rw [(hperm.map Neighbor.index).nodup_iff]
    have h3 : ((vis.map fun i => (⟨i, M.dist q (pts i) * (1 / e)⟩ : Neighbor α)).map Neighbor.index).Nodup := by
      simpa [Function.comp_def] using hnd
    exact (List.filter_sublist.map _).nodup h3
  · intro a ha
    have := hperm.subset ha
    rw [List.mem_filter, List.mem_map, decide_eq_true_eq] at this
    obtain ⟨⟨i, hi, rfl⟩, h2⟩ := this
    exact ⟨hlt i hi, rfl, h2⟩
  · intro hs
    subst hs
    unfold KdTree.searchRadiusApprox
    simp only [if_true]
    refine (sorter.sort_sorted _ _ strictWeak_neighborLt).imp ?_
    intro a b hab
    simpa [Neighbor.lt] using hab

end Genuine

/-! ## From Python -/

section Rows
variable {α F : Type} [LinearOrder α] [Zero α] [One α] [Add α] [Sub α] [Neg α] [Mul α] [Div α]
  {E : PyEnv α F} {P : DType → Platform α} {m : PyMetric} {a pts : NArray α} {n d q : Nat} {T : PyTree α}
  {data : Nat → Fin d → α}

/-- Every form of a call `search_knn(pts, k, e)` gives an array of `k` neighbors for each of the `q` queries; the ones of
query `x` satisfy `Q x`. -/
def RatioKnnCalls (E : PyEnv α F) (T : PyTree α) (dt : DType) (pts : NArray α) (q k d : Nat) (e : F)
    (Q : (Fin d → α) → List (Neighbor α) → Prop) : Prop :=
  ∀ (ta tn : Option Bool) (te : Bool) (s : Nat) (kw : List (Name × PyArg α F)),
    kw.Perm ((knnArgs (PyArr.scalars pts) k (some e) none ta tn te).drop s) →
    ∃ out, T.callKnn E (((knnArgs (PyArr.scalars pts) k (some e) none ta tn te).take s).map Prod.snd) kw = .ok out ∧
      out.dtype = recordType dt ∧
      out.shape = (if k = 1 then [q] else if pts.isC then [q, k] else [k, q]) ∧ out.base = 0 ∧ out.buf.length = q * k ∧
      ∀ i < q, ∀ x, IsPoint pts i x → ∃ r, Q x r ∧ r.length = k ∧ (∀ j < k, out.buf[i * k + j]? = r[j]?) ∧
        (pts.isC = true → ∀ j < k, out.get (if k = 1 then [i] else [i, j]) = r[j]?)

/-- Every form of a call `search_radius(pts, radius, e)`, sorted or not, with or without a `DArray` for the output, gives a
list of neighbors for each of the `q` queries; the ones of query `x` satisfy `Q x`. -/
def RatioRadiusCalls (E : PyEnv α F) (T : PyTree α) (dt : DType) (pts : NArray α) (q d : Nat) (radius e : F)
    (sort : Option Bool) (Q : (Fin d → α) → List (Neighbor α) → Prop) : Prop :=
  ∀ (nns : Option (List (List (Neighbor α)))) (ta : Option Bool) (tr te tx : Bool) (s : Nat)
    (kw : List (Name × PyArg α F)),
    kw.Perm ((radiusArgs (PyArr.scalars pts) radius (some e)
      (nns.map (PyCells.neighbors (recordType dt))) sort ta tr te tx).drop s) →
    ∃ out, T.callRadius E (((radiusArgs (PyArr.scalars pts) radius (some e)
        (nns.map (PyCells.neighbors (recordType dt))) sort ta tr te tx).take s).map Prod.snd) kw = .ok out ∧
      out.length = q ∧ ∀ i < q, ∀ x, IsPoint pts i x → ∃ r, out[i]? = some r ∧ Q x r

theorem ratio_knn_rows (h : Made E P m n d a T) (hdata : ∀ t < n, IsPoint a t (data t))
    (hv : Valid pts) (hp : Points pts q d) (hdt : pts.dtype = a.dtype) (hq : 0 < q)
    {k : Nat} (hk : 0 < k) (hkn : k ≤ n) (hcap : q * k ≤ E.cap) (hcap' : E.cap < half64) (e : F)
    (Q : Pt α d → List (Neighbor α) → Prop)
    (hQ : ∀ t, TreeOf E m a.dtype n data T t → ∀ i < q, ∀ x, IsPoint pts i x → ∀ prior r,
      t.searchKnnApprox x k (E.narrow a.dtype e) prior = .ok r → Q x r) :
    RatioKnnCalls E T a.dtype pts q k d e Q := by
  intro ta tn te s kw hkw
  rw [← neighborDType_eq]
  have hO := over_of_made h
  unfold PyTree.callKnn pyCall
  rw [c117_knn (PyArr.scalars pts) (k : Int) (some e) none ta tn te s kw hkw]
  clear hkw h
  obtain ⟨dt, m', Dim, ⟨buf, dat, size, sdim, rm⟩, tree⟩ := T
  obtain ⟨h1, h2, h3, -, h4, h5, h6, -, leaf, fuel, h8⟩ := hO
  dsimp only at h1 h2 h3 h4 h5 h6 h8
  subst h1 h2 h3 h4 h5
  have hpts : ∀ t < size, tree.pts t = data t := fun t ht => isPoint_unique (h6 t ht) (hdata t ht)
  unfold PyTree.searchKnn
  dsimp only [Option.getD_none]
  refine knn_rows hv hp (dimFor_or sdim) hdt hq hk hcap hcap' Q (fills_knn_approx tree _ hk) ?_
  intro i hi x hx s r hs hsr
  refine hQ tree ⟨rfl, tree.pts, leaf, fuel, hpts, h8⟩ i hi x hx s r ?_
  have hres : KdTree.resize (min k tree.n) s = s := by
    rw [(KdTree.make_ok h8).2.2.2.2.1, min_eq_left hkn, KdTree.resize, List.take_of_length_le (by omega), hs]
    simp
  rw [KdTree.searchKnnApprox, hres]
  exact hsr

theorem ratio_radius_rows (h : Made E P m n d a T) (hdata : ∀ t < n, IsPoint a t (data t))
    (hv : Valid pts) (hp : Points pts q d) (hdt : pts.dtype = a.dtype) (radius e : F)
    (sort : Option Bool) (Q : Pt α d → List (Neighbor α) → Prop)
    (hQ : ∀ t, TreeOf E m a.dtype n data T t → ∀ i < q, ∀ x, IsPoint pts i x →
      Q x (t.searchRadiusApprox E.sorter x (E.narrow a.dtype radius) (E.narrow a.dtype e) [] (sort.getD false))) :
    RatioRadiusCalls E T a.dtype pts q d radius e sort Q := by
  intro nns ta tr te tx s kw hkw
  rw [← neighborDType_eq] at hkw ⊢
  have hO := over_of_made h
  unfold PyTree.callRadius pyCall
  rw [c117_radius (PyArr.scalars pts) radius (some e) _ sort ta tr te tx s kw hkw]
  clear hkw h
  obtain ⟨dt, m', Dim, ⟨buf, dat, size, sdim, rm⟩, tree⟩ := T
  obtain ⟨h1, h2, h3, -, h4, h5, h6, -, leaf, fuel, h8⟩ := hO
  dsimp only at h1 h2 h3 h4 h5 h6 h8
  subst h1 h2 h3 h4 h5
  have hpts : ∀ t < size, tree.pts t = data t := fun t ht => isPoint_unique (h6 t ht) (hdata t ht)
  have hout : (nns.map (PyCells.neighbors (neighborDType a.dtype))).getD (.neighbors (neighborDType a.dtype) []) =
      .neighbors (neighborDType a.dtype) (nns.getD []) := by cases nns <;> rfl
  unfold PyTree.searchRadius
  dsimp only
  rw [hout]
  obtain ⟨out, g1, g2, g3⟩ := c33_radius_approx (neighborT := neighborDType a.dtype) hv hp (dimFor_or sdim) hdt tree
    E.sorter (E.narrow a.dtype radius) (E.narrow a.dtype e) (sort.getD false) (nns.getD [])
  exact ⟨out, g1, g2, fun i hi x hx => ⟨_, g3 i hi x hx, hQ tree ⟨rfl, tree.pts, leaf, fuel, hpts, h8⟩ i hi x hx⟩⟩

/-- C140 (Python, k neighbors): in every arithmetic, with every metric and ratio. -/
theorem c140_py_knn_genuine (h : Made E P m n d a T) (hdata : ∀ t < n, IsPoint a t (data t))
    (hv : Valid pts) (hp : Points pts q d) (hdt : pts.dtype = a.dtype) (hq : 0 < q)
    {k : Nat} (hk : 0 < k) (hkn : k ≤ n) (hcap : q * k ≤ E.cap) (hcap' : E.cap < half64) (e : F) :
    RatioKnnCalls E T a.dtype pts q k d e fun x r => ∃ L tail, r = L ++ tail ∧
      L.Pairwise (fun a b => a.distance ≤ b.distance) ∧ (L.map Neighbor.index).Nodup ∧
      (∀ y ∈ L, y.index < n ∧ y.distance = (pyMetric d m).dist x (data y.index) * (1 / E.narrow a.dtype e) ∧
        y.distance < (E.num a.dtype).big) ∧
      ∀ y, tail.getLast? = some y → y.distance = (E.num a.dtype).big := by
  refine ratio_knn_rows h hdata hv hp hdt hq hk hkn hcap hcap' e _ ?_
  rintro t ⟨-, f, leaf, fuel, hf, ht⟩ i hi x hx prior r hr
  obtain ⟨L, tail, h1, h2, h3, h4, h5, h6⟩ := c140_knn_genuine ht x (E.narrow a.dtype e) k prior hk (by omega)
  obtain rfl := Outcome.ok.inj (hr.symm.trans h1)
  exact ⟨L, tail, rfl, h3, h4, fun y hy => by rw [← hf _ (h5 y hy).1]; exact h5 y hy, h6⟩

/-- C140 (Python, radius): in every arithmetic, with every metric and ratio. -/
theorem c140_py_radius_genuine (h : Made E P m n d a T) (hdata : ∀ t < n, IsPoint a t (data t))
    (hv : Valid pts) (hp : Points pts q d) (hdt : pts.dtype = a.dtype) (radius e : F) (sort : Option Bool) :
    RatioRadiusCalls E T a.dtype pts q d radius e sort fun x r => (r.map Neighbor.index).Nodup ∧
      (∀ y ∈ r, y.index < n ∧ y.distance = (pyMetric d m).dist x (data y.index) * (1 / E.narrow a.dtype e) ∧
        y.distance < E.narrow a.dtype radius * (1 / E.narrow a.dtype e)) ∧
      (sort = some true → r.Pairwise fun a b => a.distance ≤ b.distance) := by
  refine ratio_radius_rows h hdata hv hp hdt radius e sort _ ?_
  rintro t ⟨-, f, leaf, fuel, hf, ht⟩ i hi x hx
  obtain ⟨h1, h2, h3⟩ := c140_radius_genuine ht x E.sorter (E.narrow a.dtype radius) (E.narrow a.dtype e) []
    (sort.getD false)
  exact ⟨h1, fun y hy => by rw [← hf _ (h2 y hy).1]; exact h2 y hy, fun hs => h3 (by rw [hs]; rfl)⟩

end Rows

section Rounded
variable {K : Type} [Field K] [LinearOrder K] [IsStrictOrderedRing K] {R : Rounding K} {F : Type}
  {E : PyEnv R.F F} {P : DType → Platform R.F} {m : PyMetric} {a pts : NArray R.F} {n d q : Nat} {T : PyTree R.F}

theorem approx_rows {data : Nat → Fin d → R.F} {u : K} (hm : m ≠ .lpinf) (hu : R.Error u) (hu0 : 0 ≤ u) (hu1 : u ≤ 1)
    (hlow : (E.num a.dtype).low ≤ (E.num a.dtype).big) (hr : ∀ t < n, ∀ j, InRange (E.num a.dtype) (data t j))
    (hn : 0 < n) (x : Pt R.F d) {e : R.F} (h1 : R.rd 1 = 1) (he : 1 ≤ e.1)
    {t : KdTree R.F d (Branch1 R.F d)} (ht : TreeOf E m a.dtype n data T t) :
    ∃ f : Nat → Pt R.F d, (∀ i < n, f i = data i) ∧
      ApproxUpTo t x n (fun i => (pyMetric d m).dist x (f i)) e ((1 - u) ^ d)
        ((1 + u) ^ (2 * Spec.height T.tree.data.root)) (E.num a.dtype).big.1 ∧
      ∀ i, 0 ≤ ((pyMetric d m).dist x (f i)).1 := by
  obtain ⟨hh, f, leaf, fuel, hf, ht⟩ := ht
  have hR : Representable (E.num a.dtype) f n ⟨E.std, .sliding, .maxLeafSize leaf, .fromSpace, 32⟩ :=
    ⟨hlow, fun t ht j => by rw [hf t ht]; exact hr t ht j, trivial, nofun⟩
  have hM : AxisMetric (pyMetric (α := R.F) d m) := by
    cases m with
    | l1 => exact axis_l1 R.laws
    | l2Squared => exact axis_l2Sq R.laws R.squareLaws
    | lpinf => exact absurd rfl hm
  refine ⟨f, hf, ?_, dist_nonneg hu hu0 hu1 hM x f⟩
  rw [← hh]
  exact c92_euclidean hu hu0 hu1 hM ht hR hn h1 he

/-- C140 (Python, k neighbors): `k` different rows, and the stored distance of none of them exceeds the computed distance
of a row that is missing by more than the factor of C138. -/
theorem c140_py_knn_close {data : Nat → Fin d → R.F} {u : K} (h : Made E P m n d a T) (hm : m ≠ .lpinf)
    (hdata : ∀ t < n, IsPoint a t (data t)) (hu : R.Error u) (hu0 : 0 ≤ u) (hu1 : u ≤ 1) (h1 : R.rd 1 = 1)
    (hlow : (E.num a.dtype).low ≤ (E.num a.dtype).big) (hr : ∀ t < n, ∀ j, InRange (E.num a.dtype) (data t j))
    (hv : Valid pts) (hp : Points pts q d) (hdt : pts.dtype = a.dtype) (hq : 0 < q)
    {k : Nat} (hk : 0 < k) (hkn : k ≤ n) (hcap : q * k ≤ E.cap) (hcap' : E.cap < half64)
    (e : F) (he : 1 ≤ (E.narrow a.dtype e).1)
    (hbig : ∀ i < q, ∀ x : Pt R.F d, IsPoint pts i x → ∀ t < n,
      (1 + u) ^ (2 * Spec.height T.tree.data.root) * ((pyMetric d m).dist x (data t)).1 <
        (1 - u) ^ d * (E.num a.dtype).big.1) :
    RatioKnnCalls E T a.dtype pts q k d e fun x r => (r.map Neighbor.index).Nodup ∧
      (∀ y ∈ r, y.index < n ∧ y.distance = (pyMetric d m).dist x (data y.index) * (1 / E.narrow a.dtype e)) ∧
      (r.Pairwise fun a b => a.distance ≤ b.distance) ∧
      ∀ y ∈ r, ∀ t < n, t ∉ r.map Neighbor.index → (1 - u) ^ d * y.distance.1 ≤
        (1 + u) ^ (2 * Spec.height T.tree.data.root) * ((pyMetric d m).dist x (data t)).1 := by
  refine ratio_knn_rows h hdata hv hp hdt hq hk hkn hcap hcap' e _ fun t ht i hi x hx prior r hr' => ?_
  obtain ⟨f, hf, hA, -⟩ := approx_rows hm hu hu0 hu1 hlow hr (by omega) x h1 he ht
  obtain ⟨out, rest, g1, -, g2, g3, g4⟩ := hA.knn (fun j hj => by rw [hf j hj]; exact hbig i hi x hx j hj) k prior hk
  obtain rfl := Outcome.ok.inj (hr'.symm.trans g1)
  have hidx : (out.map fun i => (⟨i, (pyMetric d m).dist x (f i) * (1 / E.narrow a.dtype e)⟩ : Neighbor R.F)).map
      Neighbor.index = out := by
    rw [List.map_map]
    exact List.map_id' _
  have hnd : (out ++ rest).Nodup := g3.nodup_iff.2 List.nodup_range
  have hlt : ∀ i ∈ out, i < n := fun i hi => List.mem_range.1 (g3.subset (List.mem_append_left _ hi))
  rw [hidx]
  refine ⟨(List.nodup_append.1 hnd).1, ?_, List.pairwise_map.2 g2, ?_⟩
  · intro y hy
    obtain ⟨i, hi, rfl⟩ := List.mem_map.1 hy
    exact ⟨hlt i hi, by rw [← hf i (hlt i hi)]⟩
  · intro y hy t' ht' hn'
    obtain ⟨i, hi, rfl⟩ := List.mem_map.1 hy
    have hrest : t' ∈ rest := by
      rcases List.mem_append.1 (g3.symm.subset (List.mem_range.2 ht')) with h | h
      · exact absurd h hn'
      · exact h
    have := g4 i hi t' hrest
    rwa [hf t' ht'] at this

/-- C140 (Python, radius): only rows whose computed distance is below the radius, and all rows that are below the stored
radius by the stated factor. -/
theorem c140_py_radius_close {data : Nat → Fin d → R.F} {u : K} (h : Made E P m n d a T) (hm : m ≠ .lpinf)
    (hdata : ∀ t < n, IsPoint a t (data t)) (hu : R.Error u) (hu0 : 0 ≤ u) (hu1 : u ≤ 1) (h1 : R.rd 1 = 1)
    (hlow : (E.num a.dtype).low ≤ (E.num a.dtype).big) (hr : ∀ t < n, ∀ j, InRange (E.num a.dtype) (data t j))
    (hn : 0 < n) (hv : Valid pts) (hp : Points pts q d) (hdt : pts.dtype = a.dtype)
    (radius e : F) (he : 1 ≤ (E.narrow a.dtype e).1) (sort : Option Bool) :
    RatioRadiusCalls E T a.dtype pts q d radius e sort fun x r => (r.map Neighbor.index).Nodup ∧
      (∀ y ∈ r, y.index < n ∧ y.distance = (pyMetric d m).dist x (data y.index) * (1 / E.narrow a.dtype e) ∧
        (pyMetric d m).dist x (data y.index) < E.narrow a.dtype radius) ∧
      ∀ t < n, (pyMetric d m).dist x (data t) * (1 / E.narrow a.dtype e) <
          E.narrow a.dtype radius * (1 / E.narrow a.dtype e) →
        (1 + u) ^ (2 * Spec.height T.tree.data.root) * ((pyMetric d m).dist x (data t)).1 <
          (1 - u) ^ d * (E.narrow a.dtype radius * (1 / E.narrow a.dtype e)).1 →
        t ∈ r.map Neighbor.index := by
  refine ratio_radius_rows h hdata hv hp hdt radius e sort _ fun t ht i hi x hx => ?_
  obtain ⟨f, hf, hA, -⟩ := approx_rows hm hu hu0 hu1 hlow hr hn x h1 he ht
  refine ⟨?_, fun y hy => ?_, fun t' ht' g1 g2 => ?_⟩
  · obtain ⟨-, f', leaf, fuel, -, ht⟩ := ht
    exact (c140_radius_genuine ht x E.sorter _ _ [] (sort.getD false)).1
  · obtain ⟨e1, e2, e3⟩ := hA.sound E.sorter (E.narrow a.dtype radius) [] (sort.getD false) y hy
    rw [← hf _ e1]
    exact ⟨e1, e2, e3⟩
  · rw [← hf t' ht'] at g1 g2
    exact List.mem_map.2 ⟨_, hA.complete E.sorter _ [] (sort.getD false) t' ht' g1 g2, rfl⟩

/-- C140 (Python, ratio): where the two operations of the scaling have relative errors of at most `u`, the rows found are
farther than the missing ones by at most the ratio times `1 / (1 - u)^2` times that factor. -/
theorem c140_py_ratio {data : Nat → Fin d → R.F} {u : K} (h : Made E P m n d a T) (hm : m ≠ .lpinf)
    (hdata : ∀ t < n, IsPoint a t (data t)) (hu : R.Error u) (hu0 : 0 ≤ u) (hu1 : u ≤ 1) (h1 : R.rd 1 = 1)
    (hlow : (E.num a.dtype).low ≤ (E.num a.dtype).big) (hr : ∀ t < n, ∀ j, InRange (E.num a.dtype) (data t j))
    (hv : Valid pts) (hp : Points pts q d) (hdt : pts.dtype = a.dtype) (hq : 0 < q)
    {k : Nat} (hk : 0 < k) (hkn : k ≤ n) (hcap : q * k ≤ E.cap) (hcap' : E.cap < half64)
    (e : F) (he : 1 ≤ (E.narrow a.dtype e).1)
    (hbig : ∀ i < q, ∀ x : Pt R.F d, IsPoint pts i x → ∀ t < n,
      (1 + u) ^ (2 * Spec.height T.tree.data.root) * ((pyMetric d m).dist x (data t)).1 <
        (1 - u) ^ d * (E.num a.dtype).big.1)
    (hdiv : |(1 / E.narrow a.dtype e : R.F).1 - 1 / (E.narrow a.dtype e).1| ≤ u * (1 / (E.narrow a.dtype e).1))
    (hmul : ∀ i < q, ∀ x : Pt R.F d, IsPoint pts i x → ∀ t < n,
      |((pyMetric d m).dist x (data t) * (1 / E.narrow a.dtype e)).1 -
          ((pyMetric d m).dist x (data t)).1 * (1 / E.narrow a.dtype e : R.F).1| ≤
        u * (((pyMetric d m).dist x (data t)).1 * (1 / E.narrow a.dtype e : R.F).1)) :
    RatioKnnCalls E T a.dtype pts q k d e fun x r => (∀ y ∈ r, y.index < n) ∧
      ∀ y ∈ r, ∀ t < n, t ∉ r.map Neighbor.index →
        (1 - u) ^ d * (1 - u) ^ 2 * ((pyMetric d m).dist x (data y.index)).1 ≤
          (E.narrow a.dtype e).1 * (1 + u) ^ (2 * Spec.height T.tree.data.root) *
            ((pyMetric d m).dist x (data t)).1 := by
  refine ratio_knn_rows h hdata hv hp hdt hq hk hkn hcap hcap' e _ fun t ht i hi x hx prior r hr' => ?_
  obtain ⟨f, hf, hA, hd0⟩ := approx_rows hm hu hu0 hu1 hlow hr (by omega) x h1 he ht
  obtain ⟨out, rest, g1, -, g2, g3, g4⟩ := hA.knn (fun j hj => by rw [hf j hj]; exact hbig i hi x hx j hj) k prior hk
  obtain rfl := Outcome.ok.inj (hr'.symm.trans g1)
  have hidx : (out.map fun i => (⟨i, (pyMetric d m).dist x (f i) * (1 / E.narrow a.dtype e)⟩ : Neighbor R.F)).map
      Neighbor.index = out := by
    rw [List.map_map]
    exact List.map_id' _
  have hlt : ∀ i ∈ out, i < n := fun i hi => List.mem_range.1 (g3.subset (List.mem_append_left _ hi))
  rw [hidx]
  refine ⟨fun y hy => ?_, fun y hy t' ht' hn' => ?_⟩
  · obtain ⟨i, hi, rfl⟩ := List.mem_map.1 hy
    exact hlt i hi
  · obtain ⟨j, hj, rfl⟩ := List.mem_map.1 hy
    have hrest : t' ∈ rest := by
      rcases List.mem_append.1 (g3.symm.subset (List.mem_range.2 ht')) with h | h
      · exact absurd h hn'
      · exact h
    have h2 := g4 j hj t' hrest
    rw [hf t' ht', hf j (hlt j hj)] at h2
    have hd0' := hd0 j
    rw [hf j (hlt j hj)] at hd0'
    show _ * ((pyMetric d m).dist x (data j)).1 ≤ _
    have h3 := (abs_le.1 (hmul i hi x hx j (hlt j hj))).1
    have h4 := (abs_le.1 hdiv).1
    have he0 : 0 < (E.narrow a.dtype e).1 := lt_of_lt_of_le one_pos he
    have hv0 : (1 - u) * (1 / (E.narrow a.dtype e).1) ≤ (1 / E.narrow a.dtype e : R.F).1 := by linarith
    have h5 : (1 - u) * (((pyMetric d m).dist x (data j)).1 * ((1 - u) * (1 / (E.narrow a.dtype e).1))) ≤
        ((pyMetric d m).dist x (data j) * (1 / E.narrow a.dtype e)).1 := by
      have := mul_le_mul_of_nonneg_left (mul_le_mul_of_nonneg_left hv0 hd0') (show 0 ≤ 1 - u by linarith)
      linarith
    have h6 := (mul_le_mul_of_nonneg_left h5 (pow_nonneg (show 0 ≤ 1 - u by linarith) d)).trans h2
    have h7 := mul_le_mul_of_nonneg_left h6 he0.le
    have e8 : (E.narrow a.dtype e).1 * ((1 - u) ^ d * ((1 - u) * (((pyMetric d m).dist x (data j)).1 *
        ((1 - u) * (1 / (E.narrow a.dtype e).1))))) = (1 - u) ^ d * (1 - u) ^ 2 * ((pyMetric d m).dist x (data j)).1 := by
      field_simp
    rw [e8] at h7
    rw [mul_assoc ((E.narrow a.dtype e).1)]
    exact h7

end Rounded

section Example

/-- The neighbors of a tree of eight floats, with ratio two and metric LPInf: the stored distance is halved and not the
largest value. -/
example : ∃ T, KdTree.make (euclideanTag F32 1) (metricLPInf F32 1) floatNum (fun i => ![lit ((i : ℚ) * 3)]) 8
    (Ref.optsSliding F32 1) 20 = .ok T ∧ (T.searchNnApprox ![lit 10] (lit 2) ⟨0, 0⟩) = ⟨3, lit (1 / 2)⟩ ∧
    lit (1 / 2) ≠ floatNum.big ∧
    T.searchRadiusApprox (Ref.sorter _) ![lit 10] (lit 3) (lit 2) [] true = [⟨3, lit (1 / 2)⟩] := by
  obtain ⟨T, h1, h2⟩ := Outcome.exists_of_check (x := KdTree.make (euclideanTag F32 1) (metricLPInf F32 1) floatNum
    (fun i => ![lit ((i : ℚ) * 3)]) 8 (Ref.optsSliding F32 1) 20)
    (p := fun T => decide ((T.searchNnApprox ![lit 10] (lit 2) ⟨0, 0⟩) = ⟨3, lit (1 / 2)⟩ ∧
      lit (1 / 2) ≠ floatNum.big ∧
      T.searchRadiusApprox (Ref.sorter _) ![lit 10] (lit 3) (lit 2) [] true = [⟨3, lit (1 / 2)⟩]))
    (by decide +kernel)
  exact ⟨T, h1, of_decide_eq_true h2⟩

/-- A tree made by the constructor: the approximate search from Python with ratio two. -/
example (P : DType → Platform F32) : ∃ T, PyTree.make (floatEnv Ref.std (Ref.sorter _)) pyC .l1 1 20 = .ok T ∧
    RatioKnnCalls (floatEnv Ref.std (Ref.sorter _)) T .float32 pyC 3 2 2 2 fun x r => (∀ y ∈ r, y.index < 3) ∧
      ∀ y ∈ r, ∀ t < 3, t ∉ r.map Neighbor.index →
        (1 - 1 / 2 ^ 24) ^ 2 * (1 - 1 / 2 ^ 24) ^ 2 * ((metricL1 F32 2).dist x (pyPts y.index)).1 ≤
          (lit 2).1 * (1 + 1 / 2 ^ 24) ^ (2 * Spec.height T.tree.data.root) * ((metricL1 F32 2).dist x (pyPts t)).1 := by
  have hlow : floatNum.low ≤ floatNum.big := by decide +kernel
  obtain ⟨T, h3, h4⟩ := Call.exists_of_check (x := PyTree.make (floatEnv Ref.std (Ref.sorter _)) pyC .l1 1 20)
    (p := fun T => decide (Spec.height T.tree.data.root ≤ 3)) (by decide +kernel)
  refine ⟨T, h3, ?_⟩
  refine c140_py_ratio (P := P) (.make pyC_valid pyC_points h3) nofun pyC_rows (ieee_relative 23 (-149)) (by positivity)
    (by norm_num) (by decide +kernel) hlow pyPts_range pyC_valid pyC_points rfl (by norm_num) (by norm_num) (by norm_num)
    (by show 3 * 2 ≤ 1000; norm_num) (by show 1000 < half64; decide +kernel) (2 : ℚ)
    (by show 1 ≤ (lit 2).1; decide +kernel) (fun i hi x hx t ht => ?_)
    (by show |(1 / lit 2).1 - 1 / (lit 2).1| ≤ _ * (1 / (lit 2).1); decide +kernel) (fun i hi x hx => ?_)
  · rw [pyC_unique i hi x hx]
    have hh := of_decide_eq_true h4
    have hpow : (1 + (1 / 2 ^ (23 + 1) : ℚ)) ^ (2 * Spec.height T.tree.data.root) ≤ (1 + 1 / 2 ^ (23 + 1)) ^ 6 :=
      pow_le_pow_right₀ (by norm_num) (by omega)
    have hd : ∀ i < 3, ∀ t < 3, 0 ≤ ((metricL1 F32 2).dist (pyPts i) (pyPts t)).1 ∧
        (1 + (1 / 2 ^ (23 + 1) : ℚ)) ^ 6 * ((metricL1 F32 2).dist (pyPts i) (pyPts t)).1 <
          (1 - 1 / 2 ^ (23 + 1)) ^ 2 * floatNum.big.1 := by decide +kernel
    exact lt_of_le_of_lt (mul_le_mul_of_nonneg_right hpow (hd i hi t ht).1) (hd i hi t ht).2
  · rw [pyC_unique i hi x hx]
    clear hx
    revert i
    show ∀ i < 3, ∀ t < 3, |((metricL1 F32 2).dist (pyPts i) (pyPts t) * (1 / lit 2)).1 -
      ((metricL1 F32 2).dist (pyPts i) (pyPts t)).1 * (1 / lit 2).1| ≤ _ * (_ * (1 / lit 2).1)
    decide +kernel

end Example

end Pico.Props
