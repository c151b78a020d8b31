import Verif.Props.Memory
import Verif.Props.Stream
import Verif.Props.Builder
import Verif.Proof.Formats

/-!
# C109: the size of a tree in memory and in a file
-/

namespace Pico.Props

open Pico Spec

/-! ## Chunks -/

section Chunks
variable {α β : Type} {M : Malloc} {cs : Nat}

/-- `k` objects were taken by an allocator since there were `base` chunks. -/
def Used (cs base k : Nat) (h : Heap) (o : Obj) : Prop :=
  o.index ≤ cs ∧ (0 < k → 0 < o.index) ∧ h.live.length * cs + o.index = base * cs + k + cs

theorem used_new (cs : Nat) (h : Heap) : Used cs h.live.length 0 h (.new cs) :=
  ⟨le_rfl, by simp, by simp [Obj.new]⟩

theorem used_allocate {base k : Nat} {h h' : Heap} {o o' : Obj} {p : Ptr} (hu : Used cs base k h o)
    (ha : o.allocate M cs h = .ok (p, h', o')) : Used cs base (k + 1) h' o' := by
  obtain ⟨h1, h2, h3⟩ := hu
  unfold Obj.allocate Obj.take Obj.refill at ha
  by_cases hi : o.index = cs
  · simp only [hi, if_true] at ha
    split_ifs at ha with hc
    simp only [Outcome.ok.injEq, Prod.mk.injEq] at ha
    obtain ⟨-, rfl, rfl⟩ := ha
    refine ⟨by dsimp only; omega, by simp, ?_⟩
    simp only [Heap.allocate, List.length_cons, Nat.add_mul, Nat.one_mul]
    omega
  · simp only [hi, if_false] at ha
    split at ha
    · cases ha
    · split_ifs at ha with hc
      simp only [Outcome.ok.injEq, Prod.mk.injEq] at ha
      obtain ⟨-, rfl, rfl⟩ := ha
      exact ⟨by dsimp only; omega, by simp, by dsimp only; omega⟩

/-- The number of chunks. -/
theorem used_chunks {base k : Nat} {h : Heap} {o : Obj} (hc : 0 < cs) (hk : 0 < k) (hu : Used cs base k h o) :
    h.live.length = base + (k + cs - 1) / cs := by
  obtain ⟨h1, h2, h3⟩ := hu
  have h4 := h2 hk
  have h5 : h.live.length * cs = base * cs + (k + (cs - o.index)) := by omega
  have h6 : base ≤ h.live.length := by
    by_contra hlt
    have : h.live.length * cs ≤ base * cs := Nat.mul_le_mul_right _ (by omega)
    omega
  obtain ⟨m, hm⟩ := Nat.exists_eq_add_of_le h6
  rw [hm, Nat.add_mul] at h5
  rw [hm]
  have h7 : m * cs = k + (cs - o.index) := by omega
  have h8 : k + cs - 1 = m * cs + (o.index - 1) := by omega
  rw [h8, Nat.mul_comm m cs, Nat.mul_add_div hc, Nat.div_eq_of_lt (by omega : o.index - 1 < cs)]
  omega

theorem used_node {base k : Nat} {s s' : NodeHeap β} {p : Ptr} (hu : Used cs base k s.heap s.obj)
    (ha : s.allocate M cs = .ok (p, s')) : Used cs base (k + 1) s'.heap s'.obj := by
  unfold NodeHeap.allocate at ha
  cases hb : s.obj.allocate M cs s.heap with
  | ub => simp [hb, Outcome.bind] at ha
  | oof => simp [hb, Outcome.bind] at ha
  | ok r =>
    obtain ⟨q, h, o⟩ := r
    simp only [hb, Outcome.bind, Outcome.ok.injEq, Prod.mk.injEq] at ha
    obtain ⟨-, rfl⟩ := ha
    exact used_allocate hu hb

theorem outcome_bind_ok {σ τ : Type} {x : Outcome σ} {f : σ → Outcome τ} {v : τ} (h : x.bind f = .ok v) :
    ∃ a, x = .ok a ∧ f a = .ok v := by
  cases x with
  | ok a => exact ⟨a, rfl, h⟩
  | ub => cases h
  | oof => cases h

theorem load_bind_ok {σ τ : Type} {x : Load σ} {f : σ → List Byte → Load τ} {v : τ} {rest : List Byte}
    (h : x.bind f = .ok v rest) : ∃ a r, x = .ok a r ∧ f a r = .ok v rest := by
  cases x with
  | ok a r => exact ⟨a, r, rfl, h⟩
  | eof => cases h
  | invalid => cases h
  | throws => cases h
  | oof => cases h

theorem readNodeIn_used {P : Platform α} {branch : Codec β} {base : Nat} (fuel : Nat) (bytes rest rest' : List Byte)
    (t : Tree β) (s s' : NodeHeap β) (p : Ptr) (k : Nat) (hu : Used cs base k s.heap s.obj)
    (ht : readNode P branch fuel bytes = .ok t rest)
    (hs : readNodeIn M cs P branch fuel bytes s = .ok (p, s') rest') :
    Used cs base (k + nodes t) s'.heap s'.obj ∧ rest' = rest := by
  induction fuel generalizing bytes rest rest' t s s' p k with
  | zero => cases ht
  | succ fuel ih =>
    unfold readNode at ht
    unfold readNodeIn at hs
    cases ha : s.allocate M cs with
    | ub => simp [ha] at hs
    | oof => simp [ha] at hs
    | ok r =>
      obtain ⟨q, s1⟩ := r
      have hu1 := used_node hu ha
      rw [ha] at hs
      obtain ⟨isLeaf, b1, hb, ht⟩ := load_bind_ok ht
      simp only [hb, Load.bind] at hs
      cases isLeaf with
      | true =>
        simp only [if_true] at ht hs
        obtain ⟨x, b2, hx, ht⟩ := load_bind_ok ht
        simp only [hx, Load.ok.injEq, Prod.mk.injEq] at hs ht
        obtain ⟨rfl, rfl⟩ := ht
        obtain ⟨⟨-, rfl⟩, rfl⟩ := hs
        exact ⟨hu1, rfl⟩
      | false =>
        simp only [Bool.false_eq_true, if_false] at ht hs
        obtain ⟨x, b2, hx, ht⟩ := load_bind_ok ht
        obtain ⟨l, b3, hl, ht⟩ := load_bind_ok ht
        obtain ⟨r, b4, hr, ht⟩ := load_bind_ok ht
        simp only [Load.ok.injEq] at ht
        obtain ⟨rfl, rfl⟩ := ht
        rw [hx] at hs
        obtain ⟨⟨pl, s2⟩, c3, hsl, hs⟩ := load_bind_ok hs
        obtain ⟨⟨pr, s3⟩, c4, hsr, hs⟩ := load_bind_ok hs
        obtain ⟨u2, rfl⟩ := ih _ _ _ _ _ _ _ _ hu1 hl hsl
        obtain ⟨u3, rfl⟩ := ih _ _ _ _ _ _ _ _ u2 hr hsr
        simp only [Load.ok.injEq, Prod.mk.injEq] at hs
        obtain ⟨⟨-, rfl⟩, rfl⟩ := hs
        refine ⟨?_, rfl⟩
        have e1 : k + 1 + nodes l + nodes r = k + nodes (.branch x l r) := by rw [nodes]; omega
        rw [e1] at u3
        exact u3

variable [LinearOrder α] [Add α] [Sub α] {d : Nat}

theorem createNodeIn_used {C : BuildCfg α d β} {base : Nat} (fuel : Nat) (depth : Int) (off : Nat)
    (seg seg1 seg2 : List Nat) (box box1 box2 : Box α d) (t : Tree β) (s s' : NodeHeap β) (p : Ptr) (k : Nat)
    (hu : Used cs base k s.heap s.obj) (ht : createNode C fuel depth off seg box = .ok (t, seg1, box1))
    (hs : createNodeIn M cs C fuel depth off seg box s = .ok (p, seg2, box2, s')) :
    Used cs base (k + nodes t) s'.heap s'.obj := by
  induction fuel generalizing depth off seg seg1 seg2 box box1 box2 t s s' p k with
  | zero => cases ht
  | succ fuel ih =>
    unfold createNode at ht
    unfold createNodeIn at hs
    obtain ⟨⟨q, s1⟩, ha, hs⟩ := outcome_bind_ok hs
    have hu1 := used_node hu ha
    by_cases hl : isLeaf C depth seg.length = true
    · simp only [hl, if_true, Outcome.ok.injEq, Prod.mk.injEq] at ht hs
      obtain ⟨rfl, -, -⟩ := ht
      obtain ⟨-, -, -, rfl⟩ := hs
      exact hu1
    · simp only [hl, if_false, Bool.false_eq_true] at ht hs
      obtain ⟨sp, hsp, ht⟩ := outcome_bind_ok ht
      obtain ⟨sp', hsp', hs⟩ := outcome_bind_ok hs
      rw [hsp] at hsp'
      cases hsp'
      obtain ⟨⟨l, segL, boxL⟩, hcl, ht⟩ := outcome_bind_ok ht
      obtain ⟨⟨r, segR, boxR⟩, hcr, ht⟩ := outcome_bind_ok ht
      obtain ⟨⟨pl, segL', boxL', s2⟩, hsl, hs⟩ := outcome_bind_ok hs
      obtain ⟨⟨pr, segR', boxR', s3⟩, hsr, hs⟩ := outcome_bind_ok hs
      simp only [Outcome.ok.injEq, Prod.mk.injEq] at ht hs
      obtain ⟨rfl, -, -⟩ := ht
      obtain ⟨-, -, -, rfl⟩ := hs
      have u2 := ih _ _ _ _ _ _ _ _ _ _ _ _ _ hu1 hcl hsl
      have u3 := ih _ _ _ _ _ _ _ _ _ _ _ _ _ u2 hcr hsr
      have e1 : k + 1 + nodes l + nodes r = k + nodes (.branch (C.setBranch boxL boxR sp.dim) l r) := by
        rw [nodes]; omega
      rw [e1] at u3
      exact u3

theorem nodes_pos (t : Tree β) : 0 < nodes t := by cases t <;> simp [nodes]

/-- C109: building a tree takes as few chunks as its nodes fit into. -/
theorem c109_build (hc : 0 < cs) {C : BuildCfg α d β} {n : Nat} {bounds : Bounds α d} {fuel : Nat}
    {D : TreeData α d β} {h : Heap} {node : Ptr → Option (Node β)} {p : Ptr} {seg : List Nat} {box : Box α d}
    {s' : NodeHeap β} (hD : buildTree C n bounds fuel = .ok D)
    (hs : createNodeIn M cs C fuel 0 0 (List.range n) D.rootBox ⟨h, .new cs, node⟩ = .ok (p, seg, box, s')) :
    s'.heap.live.length = h.live.length + (nodes D.root + cs - 1) / cs := by
  unfold buildTree at hD
  obtain ⟨⟨t, seg1, box1⟩, ht, hD⟩ := outcome_bind_ok hD
  simp only [Outcome.ok.injEq] at hD
  subst hD
  have := createNodeIn_used fuel 0 0 _ _ _ _ _ _ _ _ _ _ 0 (used_new cs h) ht hs
  rw [Nat.zero_add] at this
  exact used_chunks hc (nodes_pos t) this

omit [LinearOrder α] [Add α] [Sub α] in
/-- C109: loading a tree takes as few chunks as its nodes fit into. -/
theorem c109_load (hc : 0 < cs) {P : Platform α} {branch : Codec β} {fuel : Nat} {bytes rest rest' : List Byte}
    {t : Tree β} {h : Heap} {node : Ptr → Option (Node β)} {p : Ptr} {s' : NodeHeap β}
    (ht : readNode P branch fuel bytes = .ok t rest)
    (hs : readNodeIn M cs P branch fuel bytes ⟨h, .new cs, node⟩ = .ok (p, s') rest') :
    s'.heap.live.length = h.live.length + (nodes t + cs - 1) / cs := by
  have := (readNodeIn_used fuel _ _ _ _ _ _ _ 0 (used_new cs h) ht hs).1
  rw [Nat.zero_add] at this
  exact used_chunks hc (nodes_pos t) this

end Chunks

/-! ## Bytes -/

section Bytes
variable {α β : Type} {d : Nat} {P : Platform α} {branch : Codec β}

theorem writeValue_length {τ : Type} {c : Codec τ} {v : τ} (h : c.Good v) (pad : Nat → Byte) (out : List Byte) :
    (writeValue pad c v out).length = out.length + c.size := by
  simp only [writeValue, List.length_append, (h _).1]

/-- The leaves and the other nodes of a file. -/
theorem writeNode_length {t : Tree β} (h : t.Fits P branch) (hb : ∀ b, P.bool.Good b) (pad : Nat → Byte)
    (out : List Byte) : (writeNode pad P branch t out).length = out.length +
      (leaves t).length * (P.bool.size + P.leaf.size) + ((leaves t).length - 1) * (P.bool.size + branch.size) := by
  have key : ∀ (k : Nat) (t : Tree β), (leavesFrom k t).length = (leaves t).length ∧ 0 < (leaves t).length := by
    intro k t
    induction t generalizing k with
    | leaf b e => exact ⟨rfl, by simp [leaves, leavesFrom]⟩
    | branch x l r il ir =>
      have h1 := il (k + 1)
      have h2 := ir (k + 1)
      have h3 := il 1
      have h4 := ir 1
      simp only [leaves, leavesFrom, List.length_append, Nat.zero_add] at *
      omega
  induction t generalizing out with
  | leaf b e =>
    rw [writeNode, writeValue_length (good_leaf h.1 h.2), writeValue_length (hb true)]
    simp [leaves, leavesFrom]
    omega
  | branch x l r il ir =>
    obtain ⟨hx, hl, hr⟩ := h
    rw [writeNode, ir hr, il hl, writeValue_length hx, writeValue_length (hb false)]
    have e1 : (leaves (.branch x l r)).length = (leaves l).length + (leaves r).length := by
      simp only [leaves, leavesFrom, List.length_append, Nat.zero_add, (key 1 l).1, (key 1 r).1]
    rw [e1]
    obtain ⟨a, ha⟩ := Nat.exists_eq_add_of_lt (key 0 l).2
    obtain ⟨b, hb⟩ := Nat.exists_eq_add_of_lt (key 0 r).2
    rw [ha, hb]
    have e2 : 0 + a + 1 + (0 + b + 1) - 1 = a + b + 1 := by omega
    have e3 : 0 + a + 1 - 1 = a := by omega
    have e4 : 0 + b + 1 - 1 = b := by omega
    rw [e2, e3, e4]
    ring

/-- C109: the number of bytes of a saved tree.  It depends only on the number of points, of dimensions and of
leaves. -/
theorem c109_bytes {t : TreeData α d β} (h : t.Fits P branch) (pad : Nat → Byte) (out : List Byte) :
    (saveData pad P branch t out).length = out.length + 2 * P.sizeT.size + t.indices.length * P.index.size +
      2 * d * P.scalar.size + (leaves t.root).length * (P.bool.size + P.leaf.size) +
      ((leaves t.root).length - 1) * (P.bool.size + branch.size) := by
  unfold saveData writeData writeVector
  rw [writeNode_length h.root h.bool, writeArray_length (by
    intro x hx
    obtain ⟨j, rfl⟩ := (List.mem_ofFn' _ _).1 hx
    exact h.max j), writeArray_length (by
    intro x hx
    obtain ⟨j, rfl⟩ := (List.mem_ofFn' _ _).1 hx
    exact h.min j), writeArray_length h.indices, writeValue_length h.length, writeValue_length h.dim]
  simp only [List.length_ofFn]
  ring

end Bytes

/-! ## Trees -/

section Trees
variable {α β : Type} [LinearOrder α] [Add α] [Sub α] {d n fuel : Nat} {tag : SpaceTag α d β} {M : Metric α d}
  {N : Num α} {pts : Nat → Pt α d} {o : BuildOpts α d} {T : KdTree α d β}

theorem tiles_sum {a b m : Nat} {l : List (Nat × Nat)} (h : Tiles a l b) (hm : ∀ r ∈ l, r.2 - r.1 ≤ m) :
    b ≤ a + l.length * m := by
  induction l generalizing a with
  | nil => simp only [Tiles] at h; omega
  | cons r l ih =>
    obtain ⟨h1, h2, h3⟩ := h
    have h4 := ih h3 fun x hx => hm x (by simp [hx])
    have h5 := hm r (by simp)
    rw [List.length_cons, Nat.add_mul, Nat.one_mul]
    omega

theorem leavesFrom_le_pow (t : Tree β) (k m : Nat) (h : ∀ x ∈ leavesFrom k t, x.1 ≤ k + m) :
    (leavesFrom k t).length ≤ 2 ^ m := by
  induction t generalizing k m with
  | leaf b e => simpa [leavesFrom] using Nat.one_le_two_pow
  | branch x l r il ir =>
    simp only [leavesFrom, List.mem_append] at h
    have hpos : 0 < m := by
      have key : ∀ (t : Tree β) (k : Nat), ∃ x ∈ leavesFrom k t, k ≤ x.1 := by
        intro t
        induction t with
        | leaf b e => intro k; exact ⟨(k, b, e), by simp [leavesFrom], le_rfl⟩
        | branch x l r il ir =>
          intro k
          obtain ⟨y, hy, hk⟩ := il (k + 1)
          exact ⟨y, by simp [leavesFrom, hy], by omega⟩
      obtain ⟨y, hy, hk⟩ := key l (k + 1)
      have := h y (Or.inl hy)
      omega
    obtain ⟨m, rfl⟩ : ∃ m', m = m' + 1 := ⟨m - 1, by omega⟩
    have h1 := il (k + 1) m fun y hy => by have := h y (Or.inl hy); omega
    have h2 := ir (k + 1) m fun y hy => by have := h y (Or.inr hy); omega
    rw [leavesFrom, List.length_append, Nat.pow_succ]
    omega

omit [LinearOrder α] [Add α] [Sub α] in
/-- C109: one node less than twice the number of leaves. -/
theorem c109_nodes (t : Tree β) : nodes t = 2 * (leaves t).length - 1 := by
  have h := nodes_eq t
  have e : (ranges t).length = (leaves t).length := by simp [ranges]
  omega

/-- C109: how many leaves a tree has.  At most one for each point, except with the midpoint rule; with
`max_leaf_size_t(m)` at least `n / m`; with `max_leaf_depth_t(m)` at most `2^m`. -/
theorem c109_leaves (h : KdTree.make tag M N pts n o fuel = .ok T) (hn : 0 < n) :
    0 < (leaves T.data.root).length ∧ (o.rule ≠ .midpoint → (leaves T.data.root).length ≤ n) ∧
    (∀ m, o.stop = .maxLeafSize m → m < 2 ^ (o.indexBits - 1) → n ≤ (leaves T.data.root).length * m) ∧
    (∀ m, o.stop = .maxLeafDepth m → m < 2 ^ (o.indexBits - 1) → (leaves T.data.root).length ≤ 2 ^ m) := by
  have e : (ranges T.data.root).length = (leaves T.data.root).length := by simp [ranges]
  refine ⟨?_, fun hr => (c20_nonempty h hn hr).2.1, fun m hs hm => ?_, fun m hs hm => ?_⟩
  · have := nodes_eq T.data.root
    have := nodes_pos T.data.root
    omega
  · have := tiles_sum (c16_partition h).2.1 (c18_leaf_size_partial h hs hm)
    rw [e] at this
    omega
  · exact leavesFrom_le_pow T.data.root 0 m fun x hx => by
      have := (c19_leaf_depth_partial h hs hm x hx).1
      omega

end Trees

/-- C109 for `int` indices on a 64-bit platform and scalars of four bytes: `n` points in `d` dimensions and `L`
leaves are saved in 3 + 4 n + 8 d + 22 L bytes. -/
theorem c109_float {α : Type} {d : Nat} {c : Codec α} (hc : c.size = 4) (ha : c.align = 4)
    {t : TreeData α d (Branch1 α d)} (h : t.Fits (Platform.le64 c) ((Platform.le64 c).branch1 d))
    (pad : Nat → Byte) (hL : 0 < (leaves t.root).length) :
    (saveData pad (Platform.le64 c) ((Platform.le64 c).branch1 d) t []).length =
      3 + 4 * t.indices.length + 8 * d + 22 * (leaves t.root).length := by
  have h1 : ((Platform.le64 c).branch1 d).size = 12 := by
    simp [Platform.branch1, Platform.splitDim, Platform.le64, Codec.view, Codec.close, Codec.seq, Codec.signed, hc, ha,
      gapTo]
  have h2 : (Platform.le64 c).leaf.size = 8 := by
    simp [Platform.leaf, Platform.le64, Codec.close, Codec.seq, Codec.signed, gapTo]
  have h3 : (Platform.le64 c).sizeT.size = 8 := rfl
  have h4 : (Platform.le64 c).index.size = 4 := rfl
  have h5 : (Platform.le64 c).bool.size = 1 := rfl
  have h6 : (Platform.le64 c).scalar.size = 4 := hc
  rw [c109_bytes h, h1, h2, h3, h4, h5, h6]
  simp only [List.length_nil]
  omega

/-- C109 for scalars of eight bytes, which are aligned: 34 bytes for each leaf. -/
theorem c109_double {α : Type} {d : Nat} {c : Codec α} (hc : c.size = 8) (ha : c.align = 8)
    {t : TreeData α d (Branch1 α d)} (h : t.Fits (Platform.le64 c) ((Platform.le64 c).branch1 d))
    (pad : Nat → Byte) (hL : 0 < (leaves t.root).length) :
    (saveData pad (Platform.le64 c) ((Platform.le64 c).branch1 d) t []).length + 9 =
      4 * t.indices.length + 16 * d + 34 * (leaves t.root).length := by
  have h1 : ((Platform.le64 c).branch1 d).size = 24 := by
    simp [Platform.branch1, Platform.splitDim, Platform.le64, Codec.view, Codec.close, Codec.seq, Codec.signed, hc, ha,
      gapTo]
  have h2 : (Platform.le64 c).leaf.size = 8 := by
    simp [Platform.leaf, Platform.le64, Codec.close, Codec.seq, Codec.signed, gapTo]
  have h3 : (Platform.le64 c).sizeT.size = 8 := rfl
  have h4 : (Platform.le64 c).index.size = 4 := rfl
  have h5 : (Platform.le64 c).bool.size = 1 := rfl
  have h6 : (Platform.le64 c).scalar.size = 8 := hc
  rw [c109_bytes h, h1, h2, h3, h4, h5, h6]
  simp only [List.length_nil]
  omega

/-- Five points with 16-bit coordinates in leaves of one point: nine nodes, which fit into five chunks of two, and the
bytes of the file. -/
example : ∃ T : KdTree (Fin 65536) 2 (Branch1 (Fin 65536) 2),
    KdTree.make (euclideanTag _ 2) (metricL1 (Fin 65536) 2)
      ⟨0, 65535, fun _ => 0, fun x => ⟨x.val / 2, by omega⟩⟩
      (fun i => ![(⟨i * 7 % 5, by omega⟩ : Fin 65536), ⟨i * 3 % 5, by omega⟩]) 5
      (Ref.optsSliding _ 2) 10 = .ok T ∧
    nodes T.data.root = 9 ∧ (nodes T.data.root + 2 - 1) / 2 = 5 ∧
    (saveData (fun _ => 0) (Platform.le64 u16) ((Platform.le64 u16).branch1 2) T.data []).length =
      16 + 5 * 4 + 4 * 2 + 5 * 9 + 4 * 9 := by
  obtain ⟨T, hT, hl⟩ := Outcome.exists_of_check
    (x := KdTree.make (euclideanTag _ 2) (metricL1 (Fin 65536) 2)
      ⟨0, 65535, fun _ => 0, fun x => ⟨x.val / 2, by omega⟩⟩
      (fun i => ![(⟨i * 7 % 5, by omega⟩ : Fin 65536), ⟨i * 3 % 5, by omega⟩]) 5
      (Ref.optsSliding _ 2) 10)
    (p := fun T => decide (nodes T.data.root = 9 ∧
      (saveData (fun _ => 0) (Platform.le64 u16) ((Platform.le64 u16).branch1 2) T.data []).length =
        16 + 5 * 4 + 4 * 2 + 5 * 9 + 4 * 9)) (by decide +kernel)
  have hl := of_decide_eq_true hl
  exact ⟨T, hT, hl.1, by rw [hl.1], hl.2⟩

end Pico.Props
