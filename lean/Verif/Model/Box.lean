import Verif.Model.Metric

/-!
# Boxes and segments (internal/box.hpp, internal/segment.hpp)
-/

namespace Pico

/-- `box` / `box_map` (box.hpp): two arrays of `d` scalars. -/
structure Box (α : Type) (d : Nat) where
  min : Pt α d
  max : Pt α d

namespace Box
variable {α : Type} [LT α] [LE α] [DecidableLT α] [DecidableLE α] {d : Nat}

/-- `contains(x)` for a point (box.hpp:31-40). -/
def containsPt (b : Box α d) (x : Pt α d) : Bool :=
  (List.finRange d).all fun i => !(decide (b.min i > x i) || decide (b.max i < x i))

/-- `contains(x)` for a box (box.hpp:45-47). -/
def containsBox (b x : Box α d) : Bool := b.containsPt x.min && b.containsPt x.max

/-- `fill_inverse_max` / `make_inverse_max` (box.hpp:54-66). -/
def inverseMax (N : Num α) : Box α d where
  min _ := N.big
  max _ := N.low

/-- Loop body of `max_side` (box.hpp:75-81).  The state is (`p_max_index`, `p_max_value`);
`none` is the still uninitialised index. -/
def maxSideStep [Sub α] (b : Box α d) (st : Option (Fin d) × α) (i : Fin d) : Option (Fin d) × α :=
  let delta := b.max i - b.min i
  if delta > st.2 then (some i, delta) else st

/-- `max_side` (box.hpp:71-82). -/
def maxSide [Sub α] (N : Num α) (b : Box α d) : Option (Fin d) × α :=
  (List.finRange d).foldl (maxSideStep b) (none, N.low)

/-- `fit(x)` for a point (box.hpp:86-95). -/
def fitPt (b : Box α d) (x : Pt α d) : Box α d where
  min i := if x i < b.min i then x i else b.min i
  max i := if x i > b.max i then x i else b.max i

/-- `fit(x)` for a box (box.hpp:100-110). -/
def fitBox (b x : Box α d) : Box α d where
  min i := if x.min i < b.min i then x.min i else b.min i
  max i := if x.max i > b.max i then x.max i else b.max i

/-- The assignment `box.max(dim) = v`. -/
def setMax (b : Box α d) (dim : Fin d) (v : α) : Box α d where
  min := b.min
  max := Function.update b.max dim v

/-- The assignment `box.min(dim) = v`. -/
def setMin (b : Box α d) (dim : Fin d) (v : α) : Box α d where
  min := Function.update b.min dim v
  max := b.max

end Box

/-- A segment `[min, max]` (`segment_base`, segment.hpp:11-18). -/
structure Segment (α : Type) where
  min : α
  max : α

namespace Segment
variable {α : Type} [LT α] [LE α] [DecidableLT α] [DecidableLE α]

/-- `segment_r1::contains(x)` (segment.hpp:32). -/
def r1Contains (s : Segment α) (x : α) : Bool := decide (s.min ≤ x) && decide (x ≤ s.max)

/-- `segment_r1::contains(segment)` (segment.hpp:34-36). -/
def r1ContainsSeg (s x : Segment α) : Bool := decide (s.min ≤ x.min) && decide (x.max ≤ s.max)

/-- `segment_r1::distance` (segment.hpp:38-46). -/
def r1Distance [Zero α] [Sub α] (s : Segment α) (x : α) : α :=
  if x < s.min then s.min - x else if x > s.max then x - s.max else 0

/-- `segment_s1::linear` (segment.hpp:101). -/
def s1Linear (s : Segment α) : Bool := decide (s.min ≤ s.max)

/-- `segment_s1::contains(x)` (segment.hpp:61-67). -/
def s1Contains (s : Segment α) (x : α) : Bool :=
  if s.s1Linear then decide (s.min ≤ x) && decide (x ≤ s.max)
  else decide (x ≥ s.min) || decide (x ≤ s.max)

/-- `segment_s1::contains(segment)` (segment.hpp:69-75). -/
def s1ContainsSeg (s x : Segment α) : Bool :=
  if s.s1Linear then decide (s.min ≤ x.min) && decide (x.max ≤ s.max)
  else decide (x.min ≥ s.min) || decide (x.max ≤ s.max)

variable [Zero α] [One α] [Sub α] [Neg α]

/-- `segment_s1::distance_min_max` (segment.hpp:77-83). -/
def s1DistanceMinMax (s : Segment α) (x : α) : α :=
  if x < s.min || x > s.max then stdMin (s1Distance x s.min) (s1Distance x s.max) else 0

/-- `segment_s1::distance_max_min` (segment.hpp:85-91). -/
def s1DistanceMaxMin (s : Segment α) (x : α) : α :=
  if x < s.max || x > s.min then 0 else stdMin (s1Distance x s.min) (s1Distance x s.max)

/-- `segment_s1::distance` (segment.hpp:93-99). -/
def s1Distance (s : Segment α) (x : α) : α :=
  if s.s1Linear then s.s1DistanceMinMax x else s.s1DistanceMaxMin x

end Segment

namespace Box
variable {α : Type} [LT α] [LE α] [DecidableLT α] [DecidableLE α] {d : Nat}

/-- `metric_box_map::contains(p)` for a point (box.hpp:317-324, dispatch 356-372). -/
def topContainsPt (space : Fin d → OneSpace) (b : Box α d) (x : Pt α d) : Bool :=
  (List.finRange d).all fun i =>
    match space i with
    | .r1 => Segment.r1Contains ⟨b.min i, b.max i⟩ (x i)
    | .s1 => Segment.s1Contains ⟨b.min i, b.max i⟩ (x i)

/-- `metric_box_map::contains(x)` for a box (box.hpp:330-341, dispatch 356-372). -/
def topContainsBox (space : Fin d → OneSpace) (b x : Box α d) : Bool :=
  (List.finRange d).all fun i =>
    match space i with
    | .r1 => Segment.r1ContainsSeg ⟨b.min i, b.max i⟩ ⟨x.min i, x.max i⟩
    | .s1 => Segment.s1ContainsSeg ⟨b.min i, b.max i⟩ ⟨x.min i, x.max i⟩

end Box

end Pico
