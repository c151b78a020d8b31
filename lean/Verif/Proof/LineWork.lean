import Verif.Proof.Trace

/-! # Searches on a line open few leaves -/

namespace Pico

open Spec

section
variable {α : Type} [LinearOrder α] {σ : Type}

/-- If `k` of the points shown are strictly nearer than `x`, then so is `max()`. -/
theorem CountMax.lt {V : Visitor α σ} {dist f : Nat → α} {A : Nat → Prop} {s : σ} {k : Nat} {big : α}
    (h : CountMax V dist f A s k big) (hk : 0 < k) {w : List Nat} (hw : ∀ i ∈ w, A i) (hbig : ∀ i ∈ w, f i < big)
    {x : α} (hc : k ≤ w.countP fun i => decide (f i < x)) : V.max (visitAll V dist w s) < x := by
  obtain ⟨a, ha, hmax⟩ : ∃ a ∈ (w.filter fun i => decide (f i < x)).map f,
      ∀ b ∈ (w.filter fun i => decide (f i < x)).map f, b ≤ a := by
    have hne : (w.filter fun i => decide (f i < x)).map f ≠ [] := by
      intro he
      have := congrArg List.length he
      rw [List.length_map, ← List.countP_eq_length_filter, List.length_nil] at this
      omega
    obtain ⟨a, ha⟩ : ∃ a, ((w.filter fun i => decide (f i < x)).map f).max? = some a := by
      cases hm : ((w.filter fun i => decide (f i < x)).map f).max? with
      | none => exact absurd (List.max?_eq_none_iff.1 hm) hne
      | some a => exact ⟨a, rfl⟩
    obtain ⟨h1, h2⟩ := List.max?_eq_some_iff.1 ha
    exact ⟨a, h1, h2⟩
  obtain ⟨i, hi, rfl⟩ := List.mem_map.1 ha
  obtain ⟨hiw, hix⟩ := List.mem_filter.1 hi
  refine lt_of_le_of_lt (((h w hw).2 (f i) (hbig i hiw)).2 (hc.trans ?_)) (of_decide_eq_true hix)
  refine List.countP_mono_left fun j hj hlt => decide_eq_true (hmax _ (List.mem_map.2 ⟨j, ?_, rfl⟩))
  exact List.mem_filter.2 ⟨hj, hlt⟩

end

section
variable {α : Type} [LinearOrder α] [AddCommGroup α] {β σ : Type}
  (splitDim : β → Fin 1) (pick : β → Bool × α) (V : Visitor α σ) (dist : Nat → α) (v : List Nat)

/-- A node beside the query: at every branch the first child ends before the second begins. -/
def Beside : Tree β → Prop
  | .leaf _ _ => True
  | .branch data l r =>
    (∀ i ∈ (nearOf pick data l r).elems v, dist i < (pick data).2) ∧
    (∀ i ∈ (farOf pick data l r).elems v, (pick data).2 ≤ dist i) ∧ Beside l ∧ Beside r

/-- A node around the query: at every branch the second child lies on one side `P b` of the query, and what the first
child has on that side is nearer. -/
def Around (P : Bool → Nat → Bool) : Tree β → Prop
  | .leaf _ _ => True
  | .branch data l r =>
    (∃ b, (∀ i ∈ (farOf pick data l r).elems v, P b i = true ∧ (pick data).2 ≤ dist i) ∧
      ∀ i ∈ (nearOf pick data l r).elems v, P b i = true → dist i < (pick data).2) ∧
    (if (pick data).1 then Around P l else Around P r) ∧ Beside pick dist v (farOf pick data l r)

variable {pick dist v} in
omit [AddCommGroup α] in
theorem Beside.near {data : β} {l r : Tree β} (h : Beside pick dist v (.branch data l r)) :
    Beside pick dist v (nearOf pick data l r) := by
  unfold nearOf; split_ifs; exacts [h.2.2.1, h.2.2.2]

variable {pick dist v} in
omit [AddCommGroup α] in
theorem Beside.far {data : β} {l r : Tree β} (h : Beside pick dist v (.branch data l r)) :
    Beside pick dist v (farOf pick data l r) := by
  unfold farOf; split_ifs; exacts [h.2.2.2, h.2.2.1]

theorem pointsOf_mem {t : Tree β} {L : List (Nat × Nat)} (h : L.Subperm (ranges t)) :
    ∀ i ∈ pointsOf v L, i ∈ t.elems v := by
  intro i hi
  obtain ⟨r, hr, hir⟩ := List.mem_flatMap.1 hi
  have hr := h.subset hr
  clear h hi
  induction t with
  | leaf b e =>
    rw [ranges_leaf, List.mem_singleton] at hr
    subst hr
    exact hir
  | branch data l r ihl ihr =>
    rw [ranges_branch, List.mem_append] at hr
    rw [Tree.elems, List.mem_append]
    exact hr.imp ihl ihr

theorem elems_nonempty (t : Tree β) (h : ∀ x ∈ ranges t, 1 ≤ (slice v x.1 x.2).length) : ∃ i, i ∈ t.elems v := by
  induction t with
  | leaf b e => exact List.exists_mem_of_length_pos (h (b, e) (by simp [ranges_leaf]))
  | branch data l r ihl ihr =>
    obtain ⟨i, hi⟩ := ihl fun x hx => h x (by rw [ranges_branch]; exact List.mem_append_left _ hx)
    exact ⟨i, List.mem_append_left _ hi⟩

theorem pointsOf_length {L : List (Nat × Nat)} (h : ∀ r ∈ L, 1 ≤ (slice v r.1 r.2).length) :
    L.length ≤ (pointsOf v L).length := by
  induction L with
  | nil => exact Nat.zero_le _
  | cons a L ih =>
    have h1 := h a (by simp)
    have h2 := ih fun r hr => h r (List.mem_cons_of_mem _ hr)
    have e : (pointsOf v (a :: L)).length = (slice v a.1 a.2).length + (pointsOf v L).length := by
      rw [pointsOf, List.flatMap_cons, List.length_append]
      rfl
    rw [List.length_cons, e]
    omega

omit [LinearOrder α] [AddCommGroup α] in
theorem near_elems (data : β) (l r : Tree β) :
    (∀ i ∈ (nearOf pick data l r).elems v, i ∈ (Tree.branch data l r).elems v) ∧
    (∀ i ∈ (farOf pick data l r).elems v, i ∈ (Tree.branch data l r).elems v) ∧
    (∀ x ∈ ranges (nearOf pick data l r), x ∈ ranges (.branch data l r)) ∧
    ∀ x ∈ ranges (farOf pick data l r), x ∈ ranges (.branch data l r) := by
  unfold nearOf farOf
  rw [Tree.elems, ranges_branch]
  split_ifs
  · exact ⟨fun i hi => List.mem_append_left _ hi, fun i hi => List.mem_append_right _ hi,
      fun i hi => List.mem_append_left _ hi, fun i hi => List.mem_append_right _ hi⟩
  · exact ⟨fun i hi => List.mem_append_right _ hi, fun i hi => List.mem_append_left _ hi,
      fun i hi => List.mem_append_right _ hi, fun i hi => List.mem_append_left _ hi⟩

variable {V dist} in
/-- Beside the query a search opens at most as many leaves as points are still wanted from that side. -/
theorem beside_opened {f : Nat → α} {A : Nat → Prop} {s : σ} {k : Nat} {big : α} (hk : 0 < k)
    (hV : CountMax V dist f A s k big) (hA : ∀ i, A i → f i ≤ dist i ∧ f i < big) (P : Nat → Bool)
    (t : Tree β) (hne : ∀ r ∈ ranges t, 1 ≤ (slice v r.1 r.2).length) (hB : Beside pick dist v t)
    (hP : ∀ i ∈ t.elems v, P i = true ∧ A i) (D : α) (off : Pt α 1) (hD : D = off 0) (w : List Nat)
    (hw : ∀ i ∈ w, A i) (hwP : ∀ i ∈ w, P i = true → ∀ j ∈ t.elems v, dist i < dist j) (hc : w.countP P < k) :
    (openedOf (searchTrace splitDim pick V dist v t D (off, visitAll V dist w s))).length + w.countP P ≤ k := by
  induction t generalizing D off w with
  | leaf b e =>
    change 1 + _ ≤ k
    omega
  | branch data l r ihl ihr =>
    obtain ⟨g1, g2, g3, g4⟩ := near_elems pick v data l r
    have ih : ∀ t', t' = nearOf pick data l r ∨ t' = farOf pick data l r → ∀ (D : α) (off : Pt α 1), D = off 0 →
        ∀ w : List Nat, (∀ i ∈ w, A i) → (∀ i ∈ w, P i = true → ∀ j ∈ t'.elems v, dist i < dist j) →
        w.countP P < k →
        (openedOf (searchTrace splitDim pick V dist v t' D (off, visitAll V dist w s))).length + w.countP P ≤ k := by
      have h1 := ihl (fun x hx => hne x (by rw [ranges_branch]; exact List.mem_append_left _ hx)) hB.2.2.1
        (fun i hi => hP i (by rw [Tree.elems]; exact List.mem_append_left _ hi))
      have h2 := ihr (fun x hx => hne x (by rw [ranges_branch]; exact List.mem_append_right _ hx)) hB.2.2.2
        (fun i hi => hP i (by rw [Tree.elems]; exact List.mem_append_right _ hi))
      have h3 : ∀ t', t' = nearOf pick data l r ∨ t' = farOf pick data l r → t' = l ∨ t' = r := by
        intro t' ht
        unfold nearOf farOf at ht
        split_ifs at ht
        exacts [ht, ht.symm]
      intro t' ht
      rcases h3 t' ht with rfl | rfl
      exacts [h1, h2]
    rw [searchTrace_branch]
    dsimp only
    rw [List.cons_append, openedOf_branch, openedOf_append, List.length_append, searchNearest_trace]
    dsimp only
    rw [← visitAll_append]
    have hL1 := ih _ (Or.inl rfl) D off hD w hw (fun i hi hp j hj => hwP i hi hp j (g1 j hj)) hc
    have hsub := openedOf_ranges splitDim pick V dist v (nearOf pick data l r) D (off, visitAll V dist w s)
    generalize openedOf (searchTrace splitDim pick V dist v (nearOf pick data l r) D (off, visitAll V dist w s)) = L1
      at hL1 hsub
    have hmem := pointsOf_mem v hsub
    have hlen := pointsOf_length v (L := L1) fun x hx => hne x (g3 x (hsub.subset hx))
    have hw1 : ∀ i ∈ w ++ pointsOf v L1, A i := fun i hi =>
      (List.mem_append.1 hi).elim (hw i) fun hi => (hP i (g1 i (hmem i hi))).2
    have hcount : (w ++ pointsOf v L1).countP P = w.countP P + (pointsOf v L1).length := by
      rw [List.countP_append, List.countP_eq_length.2 fun i hi => (hP i (g1 i (hmem i hi))).1]
    have h0 : splitDim data = 0 := Subsingleton.elim _ _
    rw [h0, hD, sub_self, zero_add]
    split_ifs with hopen
    · have hnear : ∀ i ∈ w ++ pointsOf v L1, P i = true → dist i < (pick data).2 ∨
          ∀ j ∈ (farOf pick data l r).elems v, dist i < dist j := by
        intro i hi hp
        rcases List.mem_append.1 hi with hi | hi
        · exact Or.inr fun j hj => hwP i hi hp j (g2 j hj)
        · exact Or.inl (hB.1 i (hmem i hi))
      have hlt : (w ++ pointsOf v L1).countP P < k := by
        by_contra hge
        rw [not_lt] at hge
        refine absurd hopen (not_le.2 (hV.lt hk hw1 (fun i hi => (hA i (hw1 i hi)).2) (hge.trans ?_)))
        refine List.countP_mono_left fun i hi hp => decide_eq_true (lt_of_le_of_lt (hA i (hw1 i hi)).1 ?_)
        rcases List.mem_append.1 hi with hi' | hi'
        · -- compare with a point of the near child
          obtain ⟨x, hx⟩ : ∃ x, x ∈ ranges (nearOf pick data l r) := by
            have := openedOf_pos splitDim pick V dist v (nearOf pick data l r) D (off, visitAll V dist w s)
            obtain ⟨x, hx⟩ := List.exists_mem_of_length_pos this
            exact ⟨x, (openedOf_ranges splitDim pick V dist v (nearOf pick data l r) D
              (off, visitAll V dist w s)).subset hx⟩
          obtain ⟨j, hj⟩ := List.exists_mem_of_length_pos (hne x (g3 x hx))
          have hj' : j ∈ (nearOf pick data l r).elems v :=
            pointsOf_mem v (L := [x]) (List.singleton_subperm_iff.2 hx) j (by simpa [pointsOf] using hj)
          exact (hwP i hi' hp j (g1 j hj')).trans (hB.1 j hj')
        · exact hB.1 i (hmem i hi')
      have h2 := ih _ (Or.inr rfl) (pick data).2 (Function.update off 0 (pick data).2) (by simp) (w ++ pointsOf v L1) hw1
        (fun i hi hp j hj => (hnear i hi hp).elim (fun h => h.trans_le (hB.2.1 j hj)) fun h => h j hj) hlt
      rw [hcount] at h2
      omega
    · have : (openedOf ([] : List (Tree β))).length = 0 := rfl
      omega

variable {V dist} in
/-- Around the query: one leaf, and on either side at most as many as points are wanted. -/
theorem around_opened {f : Nat → α} {A : Nat → Prop} {s : σ} {k : Nat} {big : α} (hk : 0 < k)
    (hV : CountMax V dist f A s k big) (hA : ∀ i, A i → f i ≤ dist i ∧ f i < big) (P : Bool → Nat → Bool)
    (t : Tree β) (hne : ∀ r ∈ ranges t, 1 ≤ (slice v r.1 r.2).length) (hB : Around pick dist v P t)
    (hP : ∀ i ∈ t.elems v, A i) (off : Pt α 1) (hoff : off 0 = 0) :
    ∃ c : Bool → Nat, (∀ b, c b ≤ k ∧ c b ≤
      (pointsOf v (openedOf (searchTrace splitDim pick V dist v t 0 (off, s)))).countP (P b)) ∧
      (openedOf (searchTrace splitDim pick V dist v t 0 (off, s))).length ≤ 1 + c true + c false := by
  induction t with
  | leaf b e => exact ⟨fun _ => 0, fun b => ⟨Nat.zero_le _, Nat.zero_le _⟩, le_rfl⟩
  | branch data l r ihl ihr =>
    obtain ⟨g1, g2, g3, g4⟩ := near_elems pick v data l r
    have ih : (if (pick data).1 then Around pick dist v P l else Around pick dist v P r) → ∃ c : Bool → Nat, (∀ b, c b ≤ k ∧ c b ≤
        (pointsOf v (openedOf (searchTrace splitDim pick V dist v (nearOf pick data l r) 0 (off, s)))).countP (P b)) ∧
        (openedOf (searchTrace splitDim pick V dist v (nearOf pick data l r) 0 (off, s))).length ≤
          1 + c true + c false := by
      have h1 := ihl (fun x hx => hne x (by rw [ranges_branch]; exact List.mem_append_left _ hx))
      have h2 := ihr (fun x hx => hne x (by rw [ranges_branch]; exact List.mem_append_right _ hx))
      have h1' := fun h => h1 h (fun i hi => hP i (by rw [Tree.elems]; exact List.mem_append_left _ hi))
      have h2' := fun h => h2 h (fun i hi => hP i (by rw [Tree.elems]; exact List.mem_append_right _ hi))
      unfold nearOf
      split_ifs
      exacts [h1', h2']
    obtain ⟨⟨b, hb1, hb2⟩, hBn, hBf⟩ := hB
    obtain ⟨c, hc1, hc2⟩ := ih hBn
    rw [searchTrace_branch]
    dsimp only
    rw [List.cons_append, openedOf_branch, openedOf_append, List.length_append, pointsOf_append, searchNearest_trace]
    dsimp only
    have hsub := openedOf_ranges splitDim pick V dist v (nearOf pick data l r) 0 (off, s)
    generalize openedOf (searchTrace splitDim pick V dist v (nearOf pick data l r) 0 (off, s)) = L1 at hc1 hc2 hsub
    have hmem := pointsOf_mem v hsub
    have h0 : splitDim data = 0 := Subsingleton.elim _ _
    have hd : 0 - off 0 + (pick data).2 = (pick data).2 := by rw [hoff, sub_self, zero_add]
    simp only [h0, hd]
    split_ifs with hopen
    · have hw1 : ∀ i ∈ pointsOf v L1, A i := fun i hi => hP i (g1 i (hmem i hi))
      have hlt : (pointsOf v L1).countP (P b) < k := by
        by_contra hge
        rw [not_lt] at hge
        refine absurd hopen (not_le.2 (hV.lt hk hw1 (fun i hi => (hA i (hw1 i hi)).2) (hge.trans ?_)))
        exact List.countP_mono_left fun i hi hp =>
          decide_eq_true (lt_of_le_of_lt (hA i (hw1 i hi)).1 (hb2 i (hmem i hi) hp))
      have h2 := beside_opened splitDim pick v hk hV hA (P b) (farOf pick data l r) (fun x hx => hne x (g4 x hx)) hBf
        (fun i hi => ⟨(hb1 i hi).1, hP i (g2 i hi)⟩) (pick data).2 (Function.update off 0 (pick data).2) (by simp)
        (pointsOf v L1) hw1
        (fun i hi hp j hj => (hb2 i (hmem i hi) hp).trans_le (hb1 j hj).2) hlt
      have hsub2 := openedOf_ranges splitDim pick V dist v (farOf pick data l r) (pick data).2
        (Function.update off 0 (pick data).2, visitAll V dist (pointsOf v L1) s)
      generalize openedOf (searchTrace splitDim pick V dist v (farOf pick data l r) (pick data).2
        (Function.update off 0 (pick data).2, visitAll V dist (pointsOf v L1) s)) = L2 at h2 hsub2
      have hmem2 := pointsOf_mem v hsub2
      have hlen2 := pointsOf_length v (L := L2) fun x hx => hne x (g4 x (hsub2.subset hx))
      have hcount : (pointsOf v L2).countP (P b) = (pointsOf v L2).length :=
        List.countP_eq_length.2 fun i hi => (hb1 i (hmem2 i hi)).1
      refine ⟨fun a => if a = b then c a + L2.length else c a, fun a => ?_, ?_⟩
      · rw [List.countP_append]
        dsimp only
        have := hc1 a
        split_ifs with hab
        · subst hab
          omega
        · omega
      · dsimp only
        cases b <;> simp <;> omega
    · refine ⟨c, fun a => ?_, ?_⟩
      · rw [List.countP_append]
        exact ⟨(hc1 a).1, (hc1 a).2.trans (Nat.le_add_right _ _)⟩
      · have : (openedOf ([] : List (Tree β))).length = 0 := rfl
        omega

end

end Pico

namespace Pico

open Spec

section
variable {α : Type} [LinearOrder α] [Add α] [Sub α]

/-- A tree on a line whose children are separated by a gap at every branch. -/
def LineTree (x : Nat → α) (v : List Nat) : Tree (Branch1 α 1) → Prop
  | .leaf _ _ => True
  | .branch b l r =>
    (∀ i ∈ l.elems v, x i ≤ b.leftMax) ∧ (∀ i ∈ r.elems v, b.rightMin ≤ x i) ∧ b.leftMax < b.rightMin ∧
      LineTree x v l ∧ LineTree x v r

/-- Median and sliding midpoint rule, distinct points. -/
theorem Created.lineTree {C : BuildCfg α 1 (Branch1 α 1)} (hset : C.setBranch = setBranchEuclidean)
    (hN : C.N.low ≤ C.N.big) (hst : StopOk C) (hr : C.rule ≠ .midpoint) {depth : Int} {o : Nat} {seg : List Nat}
    {box : Box α 1} {t : Tree (Branch1 α 1)} {seg' : List Nat} {box' : Box α 1}
    (h : Created C depth o seg box t seg' box') (hp : ∀ i ∈ seg, ∀ j, InRange C.N (C.pts i j)) (hnd : seg.Nodup)
    (hd : ∀ i ∈ seg, ∀ k ∈ seg, C.pts i 0 = C.pts k 0 → i = k) (pre post : List Nat) (ho : o = pre.length) :
    LineTree (fun i => C.pts i 0) (pre ++ (seg' ++ post)) t := by
  induction h generalizing pre post with
  | leaf _ => trivial
  | @branch depth o seg box sp l r segL segR boxL boxR hl hs hL hR ih1 ih2 =>
    have hmem := splitter_mem hs
    have hlen : segL.length = sp.pos := by rw [hL.perm.length_eq]; exact splitter_take_length hs
    have bL := hL.built hN (fun h => absurd h hr) (fun i hi => hp i (hmem.1 i hi)) (fun h => absurd h hr)
    have bR := hR.built hN (fun h => absurd h hr) (fun i hi => hp i (hmem.2 i hi)) (fun h => absurd h hr)
    have hel := bL.elems_eq pre (segR ++ post) ho
    have her := bR.elems_eq (pre ++ segL) post (by simp [ho, hlen])
    have hperm : (sp.seg.take sp.pos ++ sp.seg.drop sp.pos).Perm seg := by
      rw [List.take_append_drop]
      exact (splitter_ok hs).1.perm
    have hnd' := hperm.nodup_iff.2 hnd
    obtain ⟨n1, n2, n3⟩ := List.nodup_append.1 hnd'
    have g1 := ih1 (fun i hi => hp i (hmem.1 i hi)) n1 (fun i hi k hk => hd i (hmem.1 i hi) k (hmem.1 k hk)) pre
      (segR ++ post) ho
    have g2 := ih2 (fun i hi => hp i (hmem.2 i hi)) n2 (fun i hi k hk => hd i (hmem.2 i hi) k (hmem.2 k hk))
      (pre ++ segL) post (by simp [ho, hlen])
    simp only [List.append_assoc] at hel her g1 g2 ⊢
    have h0 : sp.dim = 0 := Subsingleton.elim _ _
    have hso := (splitter_ok hs).1
    have p1 := (split_pos hr hs (two_le_of_not_leaf hst hl))
    obtain ⟨a, ha⟩ := List.exists_mem_of_length_pos (l := segL) (by rw [hlen]; exact p1.1)
    obtain ⟨c, hc⟩ := List.exists_mem_of_length_pos (l := segR) (by
      rw [hR.perm.length_eq, splitter_drop_length hs]; have := p1.2; omega)
    rw [hset]
    refine ⟨fun i hi => ?_, fun i hi => ?_, ?_, g1, g2⟩
    · rw [hel] at hi
      simp only [setBranchEuclidean, h0]
      exact (bL.mem i hi 0).2
    · rw [her] at hi
      simp only [setBranchEuclidean, h0]
      exact (bR.mem i hi 0).1
    · simp only [setBranchEuclidean, h0]
      obtain ⟨i, hi, ei⟩ : ∃ i ∈ segL, boxL.max 0 = C.pts i 0 := by
        rcases (hL.corners hr 0).2 with e | h
        · refine ⟨a, ha, le_antisymm ?_ (bL.mem a ha 0).2⟩
          rw [e]
          exact (hp a (hmem.1 a (hL.perm.subset ha)) 0).1
        · exact h
      obtain ⟨k, hk, ek⟩ : ∃ k ∈ segR, boxR.min 0 = C.pts k 0 := by
        rcases (hR.corners hr 0).1 with e | h
        · refine ⟨c, hc, le_antisymm (bR.mem c hc 0).1 ?_⟩
          rw [e]
          exact (hp c (hmem.2 c (hR.perm.subset hc)) 0).2
        · exact h
      have hi' := hL.perm.subset hi
      have hk' := hR.perm.subset hk
      have hle : C.pts i 0 ≤ C.pts k 0 := by
        have e1 := hso.left_le i hi'
        have e2 := hso.right_ge k hk'
        rw [h0] at e1 e2
        exact e1.trans e2
      rw [ei, ek]
      exact lt_of_le_of_ne hle fun e => n3 i hi' k hk' (hd i (hmem.1 i hi') k (hmem.2 k hk') e)

end

section
variable {α : Type} [Field α] [LinearOrder α] [IsStrictOrderedRing α]

/-- A metric on the line whose distance grows strictly. -/
structure StrictLine (M : Metric α 1) : Prop where
  dist_eq : ∀ x y, M.dist x y = M.one (x 0 - y 0)
  one_strict : ∀ x y, |x| < |y| → M.one x < M.one y
  one_abs : ∀ x y, |x| = |y| → M.one x = M.one y

omit [IsStrictOrderedRing α] in
theorem StrictLine.mono {M : Metric α 1} (hM : StrictLine M) {x y : α} (h : |x| ≤ |y|) : M.one x ≤ M.one y := by
  rcases h.lt_or_eq with h | h
  exacts [(hM.one_strict _ _ h).le, (hM.one_abs _ _ h).le]

variable {M : Metric α 1} (hM : StrictLine M) (pts : Nat → Pt α 1) (q : Pt α 1) (v : List Nat)
include hM

theorem LineTree.besideRight {t : Tree (Branch1 α 1)} (h : LineTree (fun i => pts i 0) v t)
    (hne : ∀ x ∈ ranges t, 1 ≤ (slice v x.1 x.2).length) (hq : ∀ i ∈ t.elems v, q 0 ≤ pts i 0) :
    Beside ((euclideanTag α 1).pick M q) (fun i => M.dist q (pts i)) v t := by
  induction t with
  | leaf b e => trivial
  | branch b l r ihl ihr =>
    obtain ⟨h1, h2, h3, h4, h5⟩ := h
    have hl : ∀ i ∈ l.elems v, q 0 ≤ pts i 0 := fun i hi => hq i (List.mem_append_left _ hi)
    have hr : ∀ i ∈ r.elems v, q 0 ≤ pts i 0 := fun i hi => hq i (List.mem_append_right _ hi)
    have hnl : ∀ x ∈ ranges l, 1 ≤ (slice v x.1 x.2).length :=
      fun x hx => hne x (by rw [ranges_branch]; exact List.mem_append_left _ hx)
    have hnr : ∀ x ∈ ranges r, 1 ≤ (slice v x.1 x.2).length :=
      fun x hx => hne x (by rw [ranges_branch]; exact List.mem_append_right _ hx)
    have h0 : b.splitDim = 0 := Subsingleton.elim _ _
    obtain ⟨i, hi⟩ : ∃ i, i ∈ l.elems v := elems_nonempty v l hnl
    have hv : q 0 ≤ b.leftMax := (hl i hi).trans (h1 i hi)
    have hc : b.leftMax + b.rightMin - q b.splitDim - q b.splitDim > 0 := by rw [h0]; linarith
    have hp : (euclideanTag α 1).pick M q b = (true, M.one (b.rightMin - q 0)) := by
      simp only [euclideanTag, pickEuclidean]
      rw [if_pos hc, h0]
    refine ⟨?_, ?_, ihl h4 hnl hl, ihr h5 hnr hr⟩
    · simp only [nearOf, hp, if_true]
      intro i hi
      rw [hM.dist_eq]
      apply hM.one_strict
      have := hl i hi
      have := h1 i hi
      rw [abs_of_nonpos (by linarith), abs_of_nonneg (by linarith)]
      linarith
    · simp only [farOf, hp, if_true]
      intro i hi
      rw [hM.dist_eq]
      apply hM.mono
      have := h2 i hi
      rw [abs_of_nonneg (by linarith), abs_of_nonpos (by linarith)]
      linarith

theorem LineTree.besideLeft {t : Tree (Branch1 α 1)} (h : LineTree (fun i => pts i 0) v t)
    (hne : ∀ x ∈ ranges t, 1 ≤ (slice v x.1 x.2).length) (hq : ∀ i ∈ t.elems v, pts i 0 ≤ q 0) :
    Beside ((euclideanTag α 1).pick M q) (fun i => M.dist q (pts i)) v t := by
  induction t with
  | leaf b e => trivial
  | branch b l r ihl ihr =>
    obtain ⟨h1, h2, h3, h4, h5⟩ := h
    have hl : ∀ i ∈ l.elems v, pts i 0 ≤ q 0 := fun i hi => hq i (List.mem_append_left _ hi)
    have hr : ∀ i ∈ r.elems v, pts i 0 ≤ q 0 := fun i hi => hq i (List.mem_append_right _ hi)
    have hnl : ∀ x ∈ ranges l, 1 ≤ (slice v x.1 x.2).length :=
      fun x hx => hne x (by rw [ranges_branch]; exact List.mem_append_left _ hx)
    have hnr : ∀ x ∈ ranges r, 1 ≤ (slice v x.1 x.2).length :=
      fun x hx => hne x (by rw [ranges_branch]; exact List.mem_append_right _ hx)
    have h0 : b.splitDim = 0 := Subsingleton.elim _ _
    obtain ⟨i, hi⟩ : ∃ i, i ∈ r.elems v := elems_nonempty v r hnr
    have hv : b.rightMin ≤ q 0 := (h2 i hi).trans (hr i hi)
    have hc : ¬ b.leftMax + b.rightMin - q b.splitDim - q b.splitDim > 0 := by rw [h0, gt_iff_lt, not_lt]; linarith
    have hp : (euclideanTag α 1).pick M q b = (false, M.one (b.leftMax - q 0)) := by
      simp only [euclideanTag, pickEuclidean]
      rw [if_neg hc, h0]
    refine ⟨?_, ?_, ihl h4 hnl hl, ihr h5 hnr hr⟩
    · simp only [nearOf, hp, if_false, Bool.false_eq_true]
      intro i hi
      rw [hM.dist_eq]
      apply hM.one_strict
      have := hr i hi
      have := h2 i hi
      rw [abs_of_nonneg (by linarith), abs_of_nonpos (by linarith)]
      linarith
    · simp only [farOf, hp, if_false, Bool.false_eq_true]
      intro i hi
      rw [hM.dist_eq]
      apply hM.mono
      have := h1 i hi
      rw [abs_of_nonpos (by linarith), abs_of_nonneg (by linarith)]
      linarith

/-- On which side of the query a point lies. -/
def sideOf (pts : Nat → Pt α 1) (q : Pt α 1) : Bool → Nat → Bool
  | true, i => decide (q 0 ≤ pts i 0)
  | false, i => decide (pts i 0 ≤ q 0)

theorem LineTree.around {t : Tree (Branch1 α 1)} (h : LineTree (fun i => pts i 0) v t)
    (hne : ∀ x ∈ ranges t, 1 ≤ (slice v x.1 x.2).length) :
    Around ((euclideanTag α 1).pick M q) (fun i => M.dist q (pts i)) v (sideOf pts q) t := by
  induction t with
  | leaf b e => trivial
  | branch b l r ihl ihr =>
    obtain ⟨h1, h2, h3, h4, h5⟩ := h
    have hnl : ∀ x ∈ ranges l, 1 ≤ (slice v x.1 x.2).length :=
      fun x hx => hne x (by rw [ranges_branch]; exact List.mem_append_left _ hx)
    have hnr : ∀ x ∈ ranges r, 1 ≤ (slice v x.1 x.2).length :=
      fun x hx => hne x (by rw [ranges_branch]; exact List.mem_append_right _ hx)
    have h0 : b.splitDim = 0 := Subsingleton.elim _ _
    by_cases hc : b.leftMax + b.rightMin - q b.splitDim - q b.splitDim > 0
    · have hp : (euclideanTag α 1).pick M q b = (true, M.one (b.rightMin - q 0)) := by
        simp only [euclideanTag, pickEuclidean]
        rw [if_pos hc, h0]
      rw [h0] at hc
      have hf : ∀ i ∈ r.elems v, q 0 ≤ pts i 0 := fun i hi => by have := h2 i hi; linarith
      refine ⟨⟨true, ?_, ?_⟩, ?_, ?_⟩
      · simp only [farOf, hp, if_true]
        intro i hi
        refine ⟨decide_eq_true (hf i hi), ?_⟩
        rw [hM.dist_eq]
        apply hM.mono
        have := h2 i hi
        rw [abs_of_nonneg (by linarith), abs_of_nonpos (by linarith)]
        linarith
      · simp only [nearOf, hp, if_true]
        intro i hi hs
        have hs := of_decide_eq_true hs
        rw [hM.dist_eq]
        apply hM.one_strict
        have := h1 i hi
        rw [abs_of_nonpos (by linarith), abs_of_nonneg (by linarith)]
        linarith
      · simp only [hp, if_true]
        exact ihl h4 hnl
      · simp only [farOf, hp, if_true]
        exact h5.besideRight hM pts q v hnr hf
    · have hp : (euclideanTag α 1).pick M q b = (false, M.one (b.leftMax - q 0)) := by
        simp only [euclideanTag, pickEuclidean]
        rw [if_neg hc, h0]
      rw [h0, gt_iff_lt, not_lt] at hc
      have hf : ∀ i ∈ l.elems v, pts i 0 ≤ q 0 := fun i hi => by have := h1 i hi; linarith
      refine ⟨⟨false, ?_, ?_⟩, ?_, ?_⟩
      · simp only [farOf, hp, if_false, Bool.false_eq_true]
        intro i hi
        refine ⟨decide_eq_true (hf i hi), ?_⟩
        rw [hM.dist_eq]
        apply hM.mono
        have := h1 i hi
        rw [abs_of_nonpos (by linarith), abs_of_nonneg (by linarith)]
        linarith
      · simp only [nearOf, hp, if_false, Bool.false_eq_true]
        intro i hi hs
        have hs := of_decide_eq_true hs
        rw [hM.dist_eq]
        apply hM.one_strict
        have := h2 i hi
        rw [abs_of_nonneg (by linarith), abs_of_nonpos (by linarith)]
        linarith
      · simp only [hp, if_false, Bool.false_eq_true]
        exact ihr h5 hnr
      · simp only [farOf, hp, if_false, Bool.false_eq_true]
        exact h4.besideLeft hM pts q v hnl hf

end

end Pico
