import Verif.Model.DArrayObj

/-!
# What a Python program sees of its DArrays
-/

namespace Pico.Spec

open Darr

variable {β : Type}

/-- The type of the `DArray` `d` and its elements, as values. -/
def contents (w : World β) (d : Nat) : Option (Elt × List (List β)) :=
  (w.arrays d).bind fun a => a.map fun x => (x.1, x.2.map fun b => ((w.mem.blocks b).map Blk.vals).getD [])

/-- What the NumPy array `v` shows, if its memory has not been freed. -/
def shown (w : World β) (v : Nat) : Option (List β) :=
  (w.views v).bind fun x => (w.mem.blocks x.block).map fun b => b.vals.take x.len

/-- The memory of the NumPy array `v` has been freed. -/
def Dangling (w : World β) (v : Nat) : Prop := ∃ x, w.views v = some x ∧ w.mem.blocks x.block = none

/-- The NumPy array `v` was made from element `c` of the `DArray` `d`, when that had `n` elements. -/
def MadeFrom (w : World β) (v d c n : Nat) : Prop :=
  ∃ x, w.views v = some x ∧ x.darray = d ∧ x.cell = c ∧ x.len = n

/-- The state after a program that did nothing undefined. -/
def Reaches (extra : Nat → Nat) (w : World β) : Prop := ∃ ops, exec extra World.init ops = .ok w

end Pico.Spec
