import Verif.Props.DArrayObj

/-!
# C132, NumPy arrays that survive a search
-/

namespace Pico.Darr

open Spec

variable {β : Type}

/-- No vector holds more than it has room for. -/
def Mem.Fits (m : Mem β) : Prop := ∀ b blk, m.blocks b = some blk → blk.vals.length ≤ blk.cap

theorem Mem.fits_update {m : Mem β} (h : m.Fits) (b n : Nat) {x : Option (Blk β)}
    (hx : ∀ blk, x = some blk → blk.vals.length ≤ blk.cap) : Mem.Fits ⟨Function.update m.blocks b x, n⟩ := by
  intro c blk hc
  by_cases e : c = b
  · subst e
    exact hx blk (by simpa using hc)
  · exact h c blk (by simpa [Function.update_of_ne e] using hc)

theorem Mem.alloc_fits {m : Mem β} (h : m.Fits) (e : Nat) (l : List β) : (m.alloc e l).1.Fits :=
  fits_update h _ _ (by simp)

theorem Mem.free_fits {m : Mem β} (h : m.Fits) (b : Nat) : (m.free b).Fits := fits_update h _ _ (by simp)

theorem Mem.foldl_free_fits : ∀ (bs : List Nat) {m : Mem β}, m.Fits → (bs.foldl Mem.free m).Fits
  | [], _, h => h
  | b :: bs, _, h => foldl_free_fits bs (Mem.free_fits h b)

theorem refill_fits {m : Mem β} (h : m.Fits) {e b : Nat} {l : List β} {x : Mem β × Nat}
    (hx : m.refill e b l = .ok x) : x.1.Fits := by
  unfold Mem.refill at hx
  split at hx
  · simp at hx
  · split at hx
    · rename_i hl
      cases hx
      exact Mem.fits_update h _ _ (by simpa using hl)
    · cases hx
      exact Mem.alloc_fits (Mem.free_fits h b) _ _

theorem newCells_fits (extra : Nat → Nat) : ∀ (res : List (List β)) {m : Mem β}, m.Fits → (newCells extra m res).1.Fits
  | [], _, h => h
  | _ :: rs, _, h => newCells_fits extra rs (Mem.alloc_fits h _ _)

theorem refillCells_fits (extra : Nat → Nat) : ∀ (bs : List Nat) (res : List (List β)) {m : Mem β} {x : Mem β × List Nat},
    m.Fits → refillCells extra m bs res = .ok x → x.1.Fits
  | [], res, m, x, h, hx => by
    rw [refillCells] at hx
    cases hx
    exact newCells_fits extra res h
  | b :: bs, [], m, x, h, hx => by
    rw [refillCells] at hx
    exact refillCells_fits extra bs [] (Mem.free_fits h b) hx
  | b :: bs, r :: rs, m, x, h, hx => by
    rw [refillCells] at hx
    cases h1 : m.refill (extra r.length) b r with
    | ok y =>
      cases h2 : refillCells extra y.1 bs rs with
      | ok z =>
        simp only [h1, h2, Call.bind] at hx
        cases hx
        exact (refillCells_fits extra bs rs (refill_fits h h1) h2 :)
      | _ => simp [h1, h2, Call.bind] at hx
    | _ => simp [h1, Call.bind] at hx

theorem searchInto_fits (extra : Nat → Nat) {m : Mem β} (h : m.Fits) {a : Impl Nat} {t : Elt} {res : List (List β)}
    {x : Mem β × Impl Nat} (hx : searchInto extra m a t res = .ok x) : x.1.Fits := by
  unfold searchInto at hx
  cases h1 : dtype a with
  | ok t' =>
    by_cases ht : t' = t
    · cases h2 : data t a with
      | ok bs =>
        cases h3 : refillCells extra m bs res with
        | ok y =>
          simp only [h1, h2, h3, ht, Call.bind, if_true] at hx
          cases hx
          exact refillCells_fits extra bs res h h3
        | _ => simp [h1, h2, h3, ht, Call.bind] at hx
      | _ => simp [h1, h2, ht, Call.bind] at hx
    · simp [h1, ht, Call.bind] at hx
  | _ => simp [h1, Call.bind] at hx

theorem copyCells_fits : ∀ (bs : List Nat) {m : Mem β} {x : Mem β × List Nat}, m.Fits → copyCells m bs = .ok x → x.1.Fits
  | [], m, x, h, hx => by
    rw [copyCells] at hx
    cases hx
    exact h
  | b :: bs, m, x, h, hx => by
    rw [copyCells] at hx
    cases hb : m.blocks b with
    | none => simp [hb] at hx
    | some blk =>
      cases h2 : copyCells (m.alloc 0 blk.vals).1 bs with
      | ok z =>
        simp only [hb, h2, Call.bind] at hx
        cases hx
        exact (copyCells_fits bs (Mem.alloc_fits h _ _) h2 :)
      | _ => simp [hb, h2, Call.bind] at hx

theorem addView_mem {w w' : World β} {d b c : Nat} (h : w.addView d b c = .ok w') : w'.mem = w.mem := by
  unfold World.addView at h
  split at h
  · simp at h
  · cases h; rfl

theorem addViews_mem (d : Nat) : ∀ (bs : List Nat) (c : Nat) {w w' : World β}, World.addViews d w bs c = .ok w' →
    w'.mem = w.mem
  | [], _, w, w', h => by rw [World.addViews] at h; cases h; rfl
  | b :: bs, c, w, w', h => by
    rw [World.addViews] at h
    cases h1 : w.addView d b c with
    | ok u =>
      rw [h1] at h
      rw [addViews_mem d bs (c + 1) h, addView_mem h1]
    | _ => rw [h1] at h; simp [Call.bind] at h

theorem step_fits (extra : Nat → Nat) {w w' : World β} (hw : w.mem.Fits) (op : Op β) (h : step extra w op = .ok w') :
    w'.mem.Fits := by
  cases op with
  | new t =>
    cases t with
    | none => simp [step, ofDtype, Call.bind] at h
    | some t => simp only [step, ofDtype, Call.bind] at h; cases h; exact hw
  | search t res =>
    cases h1 : searchInto extra w.mem (ofVector t []) t res with
    | ok x => simp only [step, h1, Call.bind] at h; cases h; exact searchInto_fits extra hw h1
    | _ => simp [step, h1, Call.bind] at h
  | searchInto d t res =>
    cases ha : w.arrays d with
    | none => simp [step, ha] at h
    | some a =>
      cases h1 : searchInto extra w.mem a t res with
      | ok x => simp only [step, ha, h1, Call.bind] at h; cases h; exact searchInto_fits extra hw h1
      | _ => simp [step, ha, h1, Call.bind] at h
  | slice d start stop st =>
    cases ha : w.arrays d with
    | none => simp [step, ha] at h
    | some a =>
      obtain _ | ⟨t0, bs⟩ := a
      · simp [step, ha] at h
      cases h1 : getslice bs start stop st with
      | ok cs =>
        cases h2 : copyCells w.mem cs with
        | ok x => simp only [step, ha, h1, h2, Call.bind] at h; cases h; exact copyCells_fits cs hw h2
        | _ => simp [step, ha, h1, h2, Call.bind] at h
      | _ => simp [step, ha, h1, Call.bind] at h
  | item d i =>
    cases ha : w.arrays d with
    | none => simp [step, ha] at h
    | some a =>
      obtain _ | ⟨t0, bs⟩ := a
      · simp [step, ha] at h
      cases h1 : getitem bs i with
      | ok b => simp only [step, ha, h1, Call.bind] at h; rw [addView_mem h]; exact hw
      | _ => simp [step, ha, h1, Call.bind] at h
  | list d =>
    cases ha : w.arrays d with
    | none => simp [step, ha] at h
    | some a =>
      cases h1 : size a with
      | ok n =>
        cases h2 : listOf (n + 1) a with
        | ok bs => simp only [step, ha, h1, h2, Call.bind] at h; rw [addViews_mem d bs 0 h]; exact hw
        | _ => simp [step, ha, h1, h2, Call.bind] at h
      | _ => simp [step, ha, h1, Call.bind] at h
  | write v j x =>
    cases hv : w.views v with
    | none => simp [step, hv] at h
    | some view =>
      by_cases hj : j < view.len
      · cases hb : w.mem.blocks view.block with
        | none => simp [step, hv, hj, hb] at h
        | some blk =>
          simp only [step, hv, hj, hb, if_true] at h
          cases h
          exact Mem.fits_update hw _ _ (by simpa using hw _ _ hb)
      · simp [step, hv, hj] at h
  | del d =>
    cases ha : w.arrays d with
    | none => simp [step, ha] at h
    | some a =>
      simp only [step, ha] at h
      cases h
      exact Mem.foldl_free_fits _ hw

theorem exec_fits (extra : Nat → Nat) : ∀ (ops : List (Op β)) {w w' : World β}, w.mem.Fits → exec extra w ops = .ok w' →
    w'.mem.Fits
  | [], w, w', hw, h => by rw [exec] at h; cases h; exact hw
  | op :: ops, w, w', hw, h => by
    rw [exec] at h
    cases hs : step extra w op with
    | ok u => rw [hs] at h; exact exec_fits extra ops (step_fits extra hw op hs) h
    | throws => rw [hs] at h; exact exec_fits extra ops hw h
    | _ => rw [hs] at h; simp at h

/-- A vector whose new elements fit stays in its block. -/
theorem refillCells_keeps (extra : Nat → Nat) : ∀ (bs : List Nat) (res : List (List β)) (m m' : Mem β) (bs' : List Nat)
    (c b : Nat) (r : List β) (blk : Blk β), m.Fresh → (∀ b ∈ bs, m.Live b) → bs.Nodup →
    refillCells extra m bs res = .ok (m', bs') → bs[c]? = some b → res[c]? = some r → m.blocks b = some blk →
    r.length ≤ blk.cap → bs'[c]? = some b
  | [], _, _, _, _, _, _, _, _, _, _, _, _, hb, _, _, _ => by simp at hb
  | _ :: _, [], _, _, _, _, _, _, _, _, _, _, _, _, hr, _, _ => by simp at hr
  | b0 :: bs, r0 :: rs, m, m', bs', c, b, r, blk, hf, hl, hn, h, hb, hr, hk, hc => by
    obtain ⟨hb0, hn⟩ := List.nodup_cons.1 hn
    obtain ⟨m1, b1, h1, c1, -⟩ := refill_ok m (extra r0.length) b0 r0 hf (hl b0 (by simp))
    have hsame : ∀ c ∈ bs, m1.blocks c = m.blocks c := fun c hc =>
      c1.frame c ((hl c (by simp [hc])).lt hf) (by simpa using fun e : c = b0 => hb0 (e ▸ hc))
    have hlive : ∀ c ∈ bs, m1.Live c := fun c hc => (Mem.live_congr (hsame c hc)).2 (hl c (by simp [hc]))
    obtain ⟨m2, bs2, h2, -, -⟩ := refillCells_ok extra m1 bs rs c1.fresh hlive hn
    rw [refillCells, h1] at h
    simp only [Call.bind, h2] at h
    cases h
    cases c with
    | zero =>
      obtain rfl : b0 = b := by simpa using hb
      obtain rfl : r0 = r := by simpa using hr
      rw [Mem.refill, hk] at h1
      simp only [hc, if_true] at h1
      cases h1
      simp
    | succ c =>
      have hb' : bs[c]? = some b := by simpa using hb
      have := refillCells_keeps extra bs rs m1 _ _ c b r blk c1.fresh hlive hn h2 hb' (by simpa using hr)
        (by rw [hsame b (List.mem_of_getElem? hb'), hk]) hc
      simpa using this

end Pico.Darr

namespace Pico.Props

open Spec Darr

/-- C132 (reuse): a NumPy array made from an element of a `DArray` is still good after a search into that `DArray` in
which the element gets at most as many results as it has, also exactly as many. It then shows the new results. -/
theorem c132_reuse {β : Type} {extra : Nat → Nat} {w w' : World β} (hw : Reaches extra w) {d : Nat} {t : Elt}
    {xs res : List (List β)} (hd : contents w d = some (t, xs)) (h : step extra w (.searchInto d t res) = .ok w')
    {v c n : Nat} {l r : List β} (hv : MadeFrom w v d c n) (hg : ¬ Dangling w v) (hl : xs[c]? = some l)
    (hr : res[c]? = some r) (hle : r.length ≤ l.length) : ¬ Dangling w' v ∧ shown w' v = some (r.take n) := by
  have hi := reaches_inv hw
  obtain ⟨ops, hops⟩ := hw
  have hfit : w.mem.Fits := exec_fits extra ops (by intro b blk hb; simp [World.init] at hb) hops
  obtain ⟨view, hx, rfl, rfl, rfl⟩ := hv
  obtain ⟨blk, hblk⟩ : w.mem.Live view.block := by
    cases hb : w.mem.blocks view.block with
    | none => exact absurd ⟨view, hx, hb⟩ hg
    | some blk => exact ⟨blk, hb⟩
  obtain ⟨t', bs, ha, hcell⟩ := (hi.view v view hx).2 ⟨blk, hblk⟩
  have hcon := contents_some w ha
  rw [hd] at hcon
  simp only [Option.some.injEq, Prod.mk.injEq] at hcon
  obtain ⟨rfl, rfl⟩ := hcon
  have hvals : w.mem.vals view.block = l := by
    rw [List.getElem?_map, hcell] at hl
    simpa using hl
  have hcap : r.length ≤ blk.cap := by
    have := hfit _ _ hblk
    rw [Mem.vals, hblk] at hvals
    simp only [Option.map_some, Option.getD_some] at hvals
    rw [hvals] at this
    omega
  obtain ⟨m', bs', h1, h2, h3⟩ := refillCells_ok extra w.mem bs res hi.fresh (hi.live _ _ _ ha) (hi.nodup _ _ _ ha)
  have hkeep := refillCells_keeps extra bs res w.mem m' bs' _ _ r blk hi.fresh (hi.live _ _ _ ha) (hi.nodup _ _ _ ha) h1
    hcell hr hblk hcap
  obtain ⟨blk', hb'⟩ := h2.live _ (List.mem_of_getElem? hkeep)
  have hr' : m'.vals view.block = r := by
    rw [← h3, List.getElem?_map, hkeep] at hr
    simpa using hr
  simp only [step, ha, searchInto, dtype, data, h1, Call.bind, if_true] at h
  cases h
  refine ⟨?_, ?_⟩
  · rintro ⟨y, hy, hn⟩
    simp only at hy hn
    rw [hx] at hy
    cases hy
    rw [hb'] at hn
    simp at hn
  · rw [Mem.vals, hb'] at hr'
    simp only [Option.map_some, Option.getD_some] at hr'
    simp [shown, hx, hb', hr']

/-- Two searches with as many results each: the NumPy array of the first shows the results of the second. -/
example : ∃ w : World Nat, exec (fun _ => 0) World.init
    [.search .int [[1, 2], [3], [4, 5]], .item 0 0, .searchInto 0 .int [[8, 9], [3, 3]]] = .ok w ∧
    shown w 0 = some [8, 9] := by
  have h : (exec (fun _ => 0) (World.init : World Nat)
    [.search .int [[1, 2], [3], [4, 5]], .item 0 0, .searchInto 0 .int [[8, 9], [3, 3]]]).check
    (fun w => decide (shown w 0 = some [8, 9])) = true := by decide +kernel
  obtain ⟨w, h1, h2⟩ := Call.exists_of_check h
  exact ⟨w, h1, of_decide_eq_true h2⟩

end Pico.Props
