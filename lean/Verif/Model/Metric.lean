import Verif.Model.Basic

/-!
# Distances and metrics (distance.hpp, metric.hpp, examples/kd_tree/kd_tree_custom_metric.cpp)
-/

namespace Pico

section Distance
variable {α : Type} [LT α] [LE α] [DecidableLT α] [DecidableLE α] [Zero α] [One α] [Sub α] [Neg α] [Mul α]

/-- `r1_distance` (distance.hpp:19-21). -/
def r1Distance (x y : α) : α := sabs (x - y)

/-- `s1_distance` (distance.hpp:26-29). -/
def s1Distance (x y : α) : α :=
  let d := sabs (x - y)
  stdMin d (1 - d)

/-- `squared` (distance.hpp:33-35). -/
def squared (x : α) : α := x * x

/-- `squared_r1_distance` (distance.hpp:39-41). -/
def squaredR1Distance (x y : α) : α := squared (x - y)

/-- `squared_s1_distance` (distance.hpp:46-48). -/
def squaredS1Distance (x y : α) : α := squared (s1Distance x y)

end Distance

/-- `internal::sum` (metric.hpp:31-51): `d = 0; for each coordinate: d += op(x, y)`. -/
def loopSum {α : Type} [Zero α] [Add α] {d : Nat} (op : Fin d → α) : α :=
  (List.finRange d).foldl (fun acc i => acc + op i) 0

/-- `one_space_r1`, `one_space_s1` (distance.hpp:5-7). -/
inductive OneSpace where
  | r1
  | s1
  deriving DecidableEq, Repr

/-- A metric object: `dist` is `operator()(begin1, end1, begin2)`, `one` is `operator()(Scalar_)`,
`space` is `apply_dim_space` (only used when the metric has the topological tag). -/
structure Metric (α : Type) (d : Nat) where
  dist : Pt α d → Pt α d → α
  one : α → α
  space : Fin d → OneSpace

section Metrics
variable {α : Type} [LT α] [LE α] [DecidableLT α] [DecidableLE α] [Zero α] [One α] [Add α] [Sub α] [Neg α] [Mul α]

/-- `metric_l1` (metric.hpp:78-98). -/
def metricL1 (α : Type) [LT α] [DecidableLT α] [Zero α] [Add α] [Sub α] [Neg α] (d : Nat) : Metric α d where
  dist x y := loopSum fun i => r1Distance (x i) (y i)
  one x := sabs x
  space _ := .r1

/-- `metric_l2_squared` (metric.hpp:103-124). -/
def metricL2Sq (α : Type) [LT α] [DecidableLT α] [Zero α] [Add α] [Sub α] [Mul α] (d : Nat) : Metric α d where
  dist x y := loopSum fun i => squaredR1Distance (x i) (y i)
  one x := squared x
  space _ := .r1

/-- `metric_lpinf` (metric.hpp:126-155). -/
def metricLPInf (α : Type) [LT α] [DecidableLT α] [Zero α] [Sub α] [Neg α] (d : Nat) : Metric α d where
  dist x y := (List.finRange d).foldl (fun acc i => stdMax acc (r1Distance (x i) (y i))) 0
  one x := sabs x
  space _ := .r1

/-- `metric_lninf` (metric.hpp:157-186). -/
def metricLNInf {α : Type} [LT α] [DecidableLT α] [Zero α] [Sub α] [Neg α] (N : Num α) (d : Nat) :
    Metric α d where
  dist x y := (List.finRange d).foldl (fun acc i => stdMin acc (r1Distance (x i) (y i))) N.big
  one x := sabs x
  space _ := .r1

/-- `metric_so2` (metric.hpp:197-220).  The code reads the first coordinate only, whatever the
dimension; it is defined here for spatial dimension one, the dimension it is made for. -/
def metricSO2 (α : Type) [LT α] [DecidableLT α] [Zero α] [One α] [Sub α] [Neg α] : Metric α 1 where
  dist x y := s1Distance (x 0) (y 0)
  one x := sabs x
  space _ := .s1

/-- `metric_se2_squared` (metric.hpp:228-257).  Reads the first three coordinates; defined here for
spatial dimension three. -/
def metricSE2Sq (α : Type) [LT α] [DecidableLT α] [Zero α] [One α] [Add α] [Sub α] [Neg α] [Mul α] :
    Metric α 3 where
  dist x y :=
    (((0 + squaredR1Distance (x 0) (y 0)) + squaredR1Distance (x 1) (y 1))) +
      squaredS1Distance (x 2) (y 2)
  one x := squared x
  space i := if i.val < 2 then .r1 else .s1

/-- `std::pow(x, p)` for a natural exponent, as repeated multiplication. -/
def npowRep {α : Type} [One α] [Mul α] (x : α) : Nat → α
  | 0 => 1
  | p + 1 => npowRep x p * x

/-- `metric_lp_p<P>` of the custom metric example (kd_tree_custom_metric.cpp:18-43): the sum of
`|x - y|^P`; the scalar version is `|x|^P`. -/
def metricLpP (α : Type) [LT α] [DecidableLT α] [Zero α] [One α] [Add α] [Sub α] [Neg α] [Mul α]
    (p d : Nat) : Metric α d where
  dist x y := loopSum fun i => npowRep (sabs (x i - y i)) p
  one x := npowRep (sabs x) p
  space _ := .r1

/-- `metric_t2_squared` of the custom metric example (kd_tree_custom_metric.cpp:48-78): a torus, every
axis is a circle (the example uses it for `d = 2`). -/
def metricT2Sq (α : Type) [LT α] [DecidableLT α] [Zero α] [One α] [Add α] [Sub α] [Neg α] [Mul α]
    (d : Nat) : Metric α d where
  dist x y := loopSum fun i => squaredS1Distance (x i) (y i)
  one x := squared x
  space _ := .s1

end Metrics

end Pico
