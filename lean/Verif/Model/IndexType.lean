import Verif.Model.Builder

/-!
# The index type (Index_ of `kd_tree`)

The tree model (Model/Builder.lean, Model/Search.lean) stores indices and leaf bounds as natural
numbers.  Here are the three places where the code makes them values of a machine integer type.
-/

namespace Pico

/-- `INT_MAX` of a 32 bit `int`. -/
def intMax : Int := 2 ^ 31 - 1

/-- `std::iota(indices.begin(), indices.end(), 0)` (kd_tree_builder.hpp:486, cover_tree_builder.hpp:37).
The type of the counter is that of the literal `0`, thus `int`, whatever the index type is.  Each
element gets the counter converted to the index type of `w` bits, then the counter is incremented:
undefined behaviour at `INT_MAX`. -/
def iotaInt (w : Nat) : Nat → Int → Outcome (List Int)
  | 0, _ => .ok []
  | count + 1, value =>
    if value < intMax then
      (iotaInt w count (value + 1)).bind fun rest => .ok (Int.bmod value (2 ^ w) :: rest)
    else .ub

/-- The bounds of a leaf: `static_cast<index_type>(begin - indices_.begin())`, the same for `end`
(kd_tree_builder.hpp:360-362). -/
def leafBounds (w : Nat) (b e : Nat) : Int × Int := (castIndex w b, castIndex w e)

/-- The points that the loop over a leaf reads (kd_tree_search.hpp:55-59, 153-157, 272-278), `n` the
number of points.  An offset outside of the vector and a point index outside of the space are
undefined behaviour. -/
def scanLeaf (n : Nat) (indices : List Int) (r : Int × Int) : Outcome (List Int) :=
  if 0 ≤ r.1 ∧ r.1 ≤ indices.length ∧ 0 ≤ r.2 ∧ r.2 ≤ indices.length then
    let s := slice indices r.1.toNat r.2.toNat
    if ∀ i ∈ s, 0 ≤ i ∧ i < n then .ok s else .ub
  else .ub

end Pico
