import Verif.Model.Python
import Verif.Model.DArray
import Verif.Proof.Array
import Verif.Proof.Parallel
import Verif.Proof.Search

/-!
# Batch queries
-/

namespace Pico

open Spec

section
variable {τ : Type}

theorem forRange_succ (n : Nat) (step : Nat → List τ → Call (List τ)) (buf : List τ) :
    forRange (n + 1) step buf = (forRange n step buf).bind (step n) := by
  simp [forRange, List.range_succ, List.foldl_append]

theorem memSlice_some {buf s : List τ} {p k : Nat} (h : memSlice buf (p : Int) k = some s) :
    p + k ≤ buf.length ∧ s.length = k ∧ ∀ j < k, s[j]? = buf[p + j]? := by
  unfold memSlice at h
  split at h
  next hc =>
    obtain ⟨-, hc⟩ := hc
    simp only [Int.toNat_natCast] at hc
    simp only [Int.toNat_natCast, Option.some.injEq] at h
    subst h
    refine ⟨hc, by simp; omega, fun j hj => ?_⟩
    rw [List.getElem?_take, if_pos hj, List.getElem?_drop]
  · cases h

theorem memSlice_of_le {buf : List τ} {p k : Nat} (h : p + k ≤ buf.length) :
    ∃ s, memSlice buf (p : Int) k = some s := by
  unfold memSlice
  rw [if_pos ⟨by omega, by simpa using h⟩]
  exact ⟨_, rfl⟩

theorem memSlice_eq_some {buf s : List τ} {p k : Nat} (h1 : p + k ≤ buf.length) (h2 : s.length = k)
    (h3 : ∀ j < k, s[j]? = buf[p + j]?) : memSlice buf (p : Int) k = some s := by
  obtain ⟨s', hs'⟩ := memSlice_of_le h1
  obtain ⟨-, h4, h5⟩ := memSlice_some hs'
  rw [hs']
  congr 1
  refine List.ext_getElem? fun j => ?_
  by_cases hj : j < k
  · rw [h5 j hj, h3 j hj]
  · rw [List.getElem?_eq_none (by omega), List.getElem?_eq_none (by omega)]

theorem memSplice_length {buf s : List τ} {p : Nat} (h : p + s.length ≤ buf.length) :
    (memSplice buf (p : Int) s).length = buf.length := by
  simp [memSplice]
  omega

theorem memSplice_inside {buf s : List τ} {p : Nat} (h : p + s.length ≤ buf.length) {j : Nat}
    (hj : j < s.length) : (memSplice buf (p : Int) s)[p + j]? = s[j]? := by
  simp only [memSplice, Int.toNat_natCast]
  rw [List.append_assoc, List.getElem?_append_right (by simp), List.getElem?_append_left (by simp; omega)]
  congr 1
  simp
  omega

theorem memSplice_outside {buf s : List τ} {p : Nat} (h : p + s.length ≤ buf.length) {a : Nat}
    (ha : a < p ∨ p + s.length ≤ a) : (memSplice buf (p : Int) s)[a]? = buf[a]? := by
  simp only [memSplice, Int.toNat_natCast]
  rcases ha with ha | ha
  · rw [List.append_assoc, List.getElem?_append_left (by simp; omega), List.getElem?_take, if_pos ha]
  · rw [List.getElem?_append_right (by simp; omega), List.getElem?_drop]
    congr 1
    simp
    omega

variable {α : Type} {d : Nat}

/-- The loop of `search_knn`: range `i` of the output is the result of query `i` on the previous contents
of that range, everything else is unchanged. -/
theorem forRange_knn (search : Pt α d → List τ → Outcome (List τ)) (q : SpaceMap α) (k base : Nat)
    (xs : Nat → Pt α d) (n : Nat) (hq : ∀ i < n, q.point d i = some (xs i)) (buf : List τ)
    (hb : base + n * k ≤ buf.length)
    (hs : ∀ i < n, ∀ s : List τ, s.length = k → ∃ r, search (xs i) s = .ok r ∧ r.length = k) :
    ∃ out, forRange n (knnStep search q k base) buf = .ok out ∧ out.length = buf.length ∧
      (∀ i < n, ∃ s r, memSlice buf ((base + i * k : Nat) : Int) k = some s ∧
        search (xs i) s = .ok r ∧ r.length = k ∧ ∀ j < k, out[base + i * k + j]? = r[j]?) ∧
      ∀ a, a < base ∨ base + n * k ≤ a → out[a]? = buf[a]? := by
  induction n with
  | zero => exact ⟨buf, rfl, rfl, fun i hi => absurd hi (by omega), fun _ _ => rfl⟩
  | succ n ih =>
    have hk : (n + 1) * k = n * k + k := Nat.succ_mul n k
    obtain ⟨out, h1, h2, h3, h4⟩ := ih (fun i hi => hq i (by omega)) (by omega)
      fun i hi => hs i (by omega)
    obtain ⟨s, hsl⟩ := memSlice_of_le (buf := out) (p := base + n * k) (k := k) (by omega)
    obtain ⟨-, hsl2, hsl3⟩ := memSlice_some hsl
    obtain ⟨r, hr1, hr2⟩ := hs n (by omega) s hsl2
    have hle : base + n * k + r.length ≤ out.length := by omega
    have hbase : (base : Int) + ((n * k : Nat) : Int) = ((base + n * k : Nat) : Int) := by push_cast; ring
    refine ⟨memSplice out ((base + n * k : Nat) : Int) r, ?_, ?_, fun i hi => ?_, fun a ha => ?_⟩
    · rw [forRange_succ, h1]
      simp only [Call.bind, knnStep, hbase, hq n (by omega), hsl, hr1, Call.ofOutcome]
    · rw [memSplice_length hle, h2]
    · by_cases e : i = n
      · subst e
        refine ⟨s, r, memSlice_eq_some (by omega) hsl2 fun j hj => ?_, hr1, hr2, fun j hj => ?_⟩
        · rw [hsl3 j hj]
          exact h4 _ (Or.inr (by omega))
        · exact memSplice_inside hle (by omega)
      · have hi' : i < n := by omega
        obtain ⟨s', r', g1, g2, g3, g4⟩ := h3 i hi'
        refine ⟨s', r', g1, g2, g3, fun j hj => ?_⟩
        have : (i + 1) * k ≤ n * k := Nat.mul_le_mul_right k hi'
        rw [Nat.succ_mul] at this
        rw [memSplice_outside hle (Or.inl (by omega))]
        exact g4 j hj
    · rw [memSplice_outside hle (by omega)]
      exact h4 a (by omega)

/-- The loop of `search_radius`. -/
theorem forRange_radius (search : Pt α d → List τ → List τ) (q : SpaceMap α) (xs : Nat → Pt α d)
    (n : Nat) (hq : ∀ i < n, q.point d i = some (xs i)) (cells : List (List τ))
    (hc : n ≤ cells.length) :
    ∃ out, forRange n (radiusStep search q) cells = .ok out ∧ out.length = cells.length ∧
      (∀ i < n, ∃ c, cells[i]? = some c ∧ out[i]? = some (search (xs i) c)) ∧
      ∀ i, n ≤ i → out[i]? = cells[i]? := by
  induction n with
  | zero => exact ⟨cells, rfl, rfl, fun i hi => absurd hi (by omega), fun _ _ => rfl⟩
  | succ n ih =>
    obtain ⟨out, h1, h2, h3, h4⟩ := ih (fun i hi => hq i (by omega)) (by omega)
    have hn : cells[n]? = some (cells[n]'(by omega)) := List.getElem?_eq_getElem _
    have ho : out[n]? = some (cells[n]'(by omega)) := by rw [h4 n le_rfl, hn]
    refine ⟨out.set n (search (xs n) (cells[n]'(by omega))), ?_, by simp [h2], fun i hi => ?_,
      fun i hi => ?_⟩
    · rw [forRange_succ, h1]
      simp only [Call.bind, radiusStep, hq n (by omega), ho]
    · by_cases e : i = n
      · subst e
        refine ⟨_, hn, ?_⟩
        rw [List.getElem?_set_self (by omega)]
      · rw [List.getElem?_set_ne (Ne.symm e)]
        exact h3 i (by omega)
    · rw [List.getElem?_set_ne (by omega)]
      exact h4 i (by omega)

/-- The loop of `search_box`. -/
theorem forRange_box (search : Pt α d → Pt α d → List τ → List τ) (q : SpaceMap α)
    (xs : Nat → Pt α d) (n : Nat) (hq : ∀ i < n * 2, q.point d i = some (xs i))
    (cells : List (List τ)) (hc : n ≤ cells.length) :
    ∃ out, forRange n (boxStep search q) cells = .ok out ∧ out.length = cells.length ∧
      (∀ i < n, ∃ c, cells[i]? = some c ∧
        out[i]? = some (search (xs (2 * i)) (xs (2 * i + 1)) c)) ∧
      ∀ i, n ≤ i → out[i]? = cells[i]? := by
  induction n with
  | zero => exact ⟨cells, rfl, rfl, fun i hi => absurd hi (by omega), fun _ _ => rfl⟩
  | succ n ih =>
    obtain ⟨out, h1, h2, h3, h4⟩ := ih (fun i hi => hq i (by omega)) (by omega)
    have hn : cells[n]? = some (cells[n]'(by omega)) := List.getElem?_eq_getElem _
    have ho : out[n]? = some (cells[n]'(by omega)) := by rw [h4 n le_rfl, hn]
    have e0 : n * 2 + 0 = 2 * n := by omega
    have e1 : n * 2 + 1 = 2 * n + 1 := by omega
    refine ⟨out.set n (search (xs (2 * n)) (xs (2 * n + 1)) (cells[n]'(by omega))), ?_, by simp [h2],
      fun i hi => ?_, fun i hi => ?_⟩
    · rw [forRange_succ, h1]
      simp only [Call.bind, boxStep, e0, e1, hq (2 * n) (by omega), hq (2 * n + 1) (by omega), ho]
    · by_cases e : i = n
      · subst e
        refine ⟨_, hn, ?_⟩
        rw [List.getElem?_set_self (by omega)]
      · rw [List.getElem?_set_ne (Ne.symm e)]
        exact h3 i (by omega)
    · rw [List.getElem?_set_ne (by omega)]
      exact h4 i (by omega)

/-- `ensure_size` on a new output array. -/
theorem ensureSize_default (zero : τ) (n : Nat) (rm : Bool) (k : Nat) (dt : DType) :
    ∃ a, ensureSize zero n rm k (.default dt) = .ok a ∧ a.writeable = true ∧ a.base = 0 ∧
      a.buf = List.replicate (n * k) zero ∧ a.dtype = dt ∧
      (n * k = 0 → a.shape = [0]) ∧
      (n * k ≠ 0 → a.shape = (if k = 1 then [n] else if rm then [n, k] else [k, n]) ∧
        a.strides = cStrides a.shape) := by
  unfold ensureSize
  by_cases h0 : n * k = 0
  · rw [if_neg (by simp [NArray.default, h0])]
    exact ⟨_, rfl, rfl, rfl, by simp [h0, NArray.default], rfl, fun _ => rfl, fun h => absurd h0 h⟩
  · rw [if_pos (by simp [NArray.default]; simpa using Ne.symm h0)]
    by_cases hk : k = 1
    · subst hk
      simp [NArray.default, NArray.resize, NArray.isC, NArray.isF]
    · cases rm <;> simp [NArray.default, NArray.resize, NArray.isC, NArray.isF, hk, Nat.mul_comm] <;>
        simpa [Nat.mul_comm] using h0

theorem resizeCells_length (n : Nat) (cells : List (List τ)) : (resizeCells n cells).length = n := by
  simp [resizeCells]
  omega

theorem resizeCells_getElem {n i : Nat} (hi : i < n) (cells : List (List τ)) :
    (resizeCells n cells)[i]? = some ((cells[i]?).getD []) := by
  unfold resizeCells
  by_cases h : i < cells.length
  · rw [List.getElem?_append_left (by simp; omega), List.getElem?_take, if_pos hi,
      List.getElem?_eq_getElem h]
    rfl
  · rw [List.getElem?_append_right (by simp; omega), List.getElem?_replicate, if_pos (by simp; omega),
      List.getElem?_eq_none (l := cells) (by omega)]
    rfl

theorem exists_points {pts : NArray α} {q : SpaceMap α} {n : Nat} (hn : 0 < n)
    (h : ∀ i < n, ∃ x : Pt α d, q.point d i = some x ∧ IsPoint pts i x) :
    ∃ xs : Nat → Pt α d, ∀ i < n, q.point d i = some (xs i) ∧ IsPoint pts i (xs i) := by
  have : ∀ i : Nat, ∃ x : Pt α d, i < n → q.point d i = some x ∧ IsPoint pts i x := fun i => by
    by_cases hi : i < n
    · obtain ⟨x, hx⟩ := h i hi
      exact ⟨x, fun _ => hx⟩
    · obtain ⟨x, -⟩ := h 0 hn
      exact ⟨x, fun h' => absurd h' hi⟩
  exact ⟨fun i => (this i).choose, fun i hi => (this i).choose_spec hi⟩

/-- `search_knn` on a batch, in terms of the memory of the output. -/
theorem pyKnnInto_core {Dim : Option Nat} {scalarT neighborT : DType} {zero : τ}
    {search : Pt α d → List τ → Outcome (List τ)} {pts : NArray α} {k n : Nat} {nns nns' : NArray τ}
    (hv : Valid pts) (hp : Points pts n d) (hD : Dim = none ∨ Dim = some d) (hst : pts.dtype = scalarT)
    (hnt : nns.dtype = neighborT) (he : ensureSize zero n pts.isC k nns = .ok nns')
    (hw : nns'.writeable = true) {b : Nat} (hb : nns'.base = b) (hl : b + n * k ≤ nns'.buf.length)
    (hs : ∀ x s, s.length = k → ∃ r, search x s = .ok r ∧ r.length = k) :
    ∃ out, pyKnnInto Dim scalarT neighborT zero search pts k nns = .ok { nns' with buf := out } ∧
      out.length = nns'.buf.length ∧
      (∀ i < n, ∀ x, IsPoint pts i x → ∃ s r, memSlice nns'.buf ((b + i * k : Nat) : Int) k = some s ∧
        search x s = .ok r ∧ r.length = k ∧ ∀ j < k, out[b + i * k + j]? = r[j]?) ∧
      ∀ a, a < b ∨ b + n * k ≤ a → out[a]? = nns'.buf[a]? := by
  obtain ⟨q, hq, hq1, hq2, hq3, -, -, hq6⟩ := makeMap_of_points hv hp hD
  have hrun : ∃ out, forRange n (knnStep search q k nns'.base) nns'.buf = .ok out ∧
      out.length = nns'.buf.length ∧
      (∀ i < n, ∀ x, IsPoint pts i x → ∃ s r, memSlice nns'.buf ((b + i * k : Nat) : Int) k = some s ∧
        search x s = .ok r ∧ r.length = k ∧ ∀ j < k, out[b + i * k + j]? = r[j]?) ∧
      ∀ a, a < b ∨ b + n * k ≤ a → out[a]? = nns'.buf[a]? := by
    rcases Nat.eq_zero_or_pos n with rfl | hn
    · exact ⟨nns'.buf, rfl, rfl, fun i hi => absurd hi (by omega), fun _ _ => rfl⟩
    · obtain ⟨xs, hxs⟩ := exists_points hn hq6
      obtain ⟨out, h1, h2, h3, h4⟩ := forRange_knn search q k b xs n (fun i hi => (hxs i hi).1) nns'.buf hl
        fun i _ => hs (xs i)
      refine ⟨out, hb ▸ h1, h2, fun i hi x hx => ?_, h4⟩
      rw [isPoint_unique hx (hxs i hi).2]
      exact h3 i hi
  obtain ⟨out, h1, h2, h3, h4⟩ := hrun
  refine ⟨out, ?_, h2, h3, h4⟩
  unfold pyKnnInto
  rw [if_neg (by simp [hst]), if_neg (by simp [hnt]), hq]
  simp only [Call.bind, hq1, hq2, hq3, he, hw, h1]
  simp

/-- `search_radius` on a batch. -/
theorem pyRadiusInto_core {Dim : Option Nat} {scalarT neighborT nnsT : DType}
    {search : Pt α d → List τ → List τ} {pts : NArray α} {n : Nat} {cells : List (List τ)}
    (hv : Valid pts) (hp : Points pts n d) (hD : Dim = none ∨ Dim = some d) (hst : pts.dtype = scalarT)
    (hnt : nnsT = neighborT) :
    ∃ out, pyRadiusInto Dim scalarT neighborT search pts nnsT cells = .ok out ∧ out.length = n ∧
      ∀ i < n, ∀ x, IsPoint pts i x →
        out[i]? = some (search x ((cells[i]?).getD [])) := by
  obtain ⟨q, hq, hq1, hq2, hq3, -, -, hq6⟩ := makeMap_of_points hv hp hD
  have hrun : ∃ out, forRange n (radiusStep search q) (resizeCells n cells) = .ok out ∧ out.length = n ∧
      ∀ i < n, ∀ x, IsPoint pts i x → out[i]? = some (search x ((cells[i]?).getD [])) := by
    rcases Nat.eq_zero_or_pos n with rfl | hn
    · exact ⟨_, rfl, resizeCells_length 0 cells, fun i hi => absurd hi (by omega)⟩
    · obtain ⟨xs, hxs⟩ := exists_points hn hq6
      obtain ⟨out, h1, h2, h3, -⟩ := forRange_radius search q xs n (fun i hi => (hxs i hi).1)
        (resizeCells n cells) (by rw [resizeCells_length])
      refine ⟨out, h1, by rw [h2, resizeCells_length], fun i hi x hx => ?_⟩
      obtain ⟨c, hc1, hc2⟩ := h3 i hi
      rw [resizeCells_getElem hi] at hc1
      rw [isPoint_unique hx (hxs i hi).2, hc2]
      simp only [Option.some.injEq] at hc1
      rw [hc1]
  obtain ⟨out, h1, h2, h3⟩ := hrun
  refine ⟨out, ?_, h2, h3⟩
  unfold pyRadiusInto
  rw [if_neg (by simp [hst]), if_neg (by simp [hnt]), hq]
  simp only [Call.bind, hq1, hq2, h1]
  simp

/-- `search_box` on a batch. -/
theorem pyBoxInto_core {Dim : Option Nat} {scalarT indexT indicesT : DType}
    {search : Pt α d → Pt α d → List τ → List τ} {boxes : NArray α} {n : Nat} {cells : List (List τ)}
    (hv : Valid boxes) (hp : Points boxes (2 * n) d) (hD : Dim = none ∨ Dim = some d)
    (hst : boxes.dtype = scalarT) (hnt : indicesT = indexT) :
    ∃ out, pyBoxInto Dim scalarT indexT search boxes indicesT cells = .ok out ∧ out.length = n ∧
      ∀ i < n, ∀ x y, IsPoint boxes (2 * i) x → IsPoint boxes (2 * i + 1) y →
        out[i]? = some (search x y ((cells[i]?).getD [])) := by
  obtain ⟨q, hq, hq1, hq2, hq3, -, -, hq6⟩ := makeMap_of_points hv hp hD
  have hrun : ∃ out, forRange n (boxStep search q) (resizeCells n cells) = .ok out ∧ out.length = n ∧
      ∀ i < n, ∀ x y, IsPoint boxes (2 * i) x → IsPoint boxes (2 * i + 1) y →
        out[i]? = some (search x y ((cells[i]?).getD [])) := by
    rcases Nat.eq_zero_or_pos n with rfl | hn
    · exact ⟨_, rfl, resizeCells_length 0 cells, fun i hi => absurd hi (by omega)⟩
    · obtain ⟨xs, hxs⟩ := exists_points (n := 2 * n) (by omega) hq6
      obtain ⟨out, h1, h2, h3, -⟩ := forRange_box search q xs n (fun i hi => (hxs i (by omega)).1)
        (resizeCells n cells) (by rw [resizeCells_length])
      refine ⟨out, h1, by rw [h2, resizeCells_length], fun i hi x y hx hy => ?_⟩
      obtain ⟨c, hc1, hc2⟩ := h3 i hi
      rw [resizeCells_getElem hi] at hc1
      rw [isPoint_unique hx (hxs (2 * i) (by omega)).2, isPoint_unique hy (hxs (2 * i + 1) (by omega)).2, hc2]
      simp only [Option.some.injEq] at hc1
      rw [hc1]
  obtain ⟨out, h1, h2, h3⟩ := hrun
  refine ⟨out, ?_, h2, h3⟩
  unfold pyBoxInto
  rw [if_neg (by simp [hst]), if_neg (by simp [hnt]), hq]
  have e1 : 2 * n % 2 = 0 := by omega
  have e2 : 2 * n / 2 = n := by omega
  simp only [Call.bind, hq1, hq2, e1, e2, h1]
  simp

end

/-! ## The single query on a range -/

section
variable {α : Type} [LinearOrder α] {d : Nat} {β : Type}

theorem insertLoop_length (item : Neighbor α) (buf : List (Neighbor α)) (e : Nat) :
    (insertLoop item buf e).length = buf.length := by
  induction e generalizing buf with
  | zero => simp [insertLoop]
  | succ e ih =>
    unfold insertLoop
    split
    · split
      · rw [ih]; simp
      · simp
    · rfl

theorem knnVisit_length (N : Num α) (s : KnnState α) (i : Nat) (x : α) :
    (knnVisit N s i x).buf.length = s.buf.length := by
  unfold knnVisit
  split
  · exact insertLoop_length _ _ _
  · rfl

theorem visitAll_knn_length (N : Num α) (f : α → α) (dist : Nat → α) (l : List Nat) (s : KnnState α) :
    (visitAll ⟨fun s i x => knnVisit N s i (f x), knnMax N⟩ dist l s).buf.length = s.buf.length := by
  induction l generalizing s with
  | nil => rfl
  | cons i l ih =>
    unfold visitAll at ih ⊢
    rw [List.foldl_cons, ih, knnVisit_length]

variable [Zero α] [Add α] [Sub α]

theorem searchNearest_knn_length (T : KdTree α d β) (x : Pt α d) (f : α → α) (s : KnnState α) :
    (T.searchNearest x ⟨fun s i x => knnVisit T.num s i (f x), knnMax T.num⟩ s).buf.length =
      s.buf.length := by
  unfold KdTree.searchNearest searchNearestRoot
  obtain ⟨vis, -, -, he⟩ := searchNearest_struct T.tag.splitDim (T.tag.pick T.metric x)
    ⟨fun s i x => knnVisit T.num s i (f x), knnMax T.num⟩
    (fun i => T.metric.dist x (T.pts i)) T.data.indices T.data.root 0 (fun _ => 0, s)
  rw [he]
  exact visitAll_knn_length _ _ _ _ _

/-- The search on a non-empty range fills exactly that range. -/
theorem searchKnnRange_length (T : KdTree α d β) (x : Pt α d) (buf : List (Neighbor α))
    (hb : 0 < buf.length) : ∃ r, T.searchKnnRange x buf = .ok r ∧ r.length = buf.length := by
  unfold KdTree.searchKnnRange knnInit
  cases hl : buf.getLast? with
  | none => simp at hl; simp [hl] at hb
  | some y =>
    refine ⟨_, rfl, ?_⟩
    have := searchNearest_knn_length T x id ⟨buf.set (buf.length - 1) { y with distance := T.num.big }, 0⟩
    simpa [knnVisitor] using this

theorem searchKnnApproxRange_length [One α] [Mul α] [Div α] (T : KdTree α d β) (x : Pt α d) (e : α)
    (buf : List (Neighbor α)) (hb : 0 < buf.length) :
    ∃ r, T.searchKnnApproxRange x e buf = .ok r ∧ r.length = buf.length := by
  unfold KdTree.searchKnnApproxRange knnInit
  cases hl : buf.getLast? with
  | none => simp at hl; simp [hl] at hb
  | some y =>
    refine ⟨_, rfl, ?_⟩
    have := searchNearest_knn_length T x (fun v => v * (1 / e))
      ⟨buf.set (buf.length - 1) { y with distance := T.num.big }, 0⟩
    simpa [approxKnnVisitor] using this

end

end Pico
