import Verif.Proof.Rounding

/-!
# The comparisons of the test framework

GoogleTest is not part of the repository: these definitions follow its documentation of `EXPECT_NEAR`,
`EXPECT_FLOAT_EQ` and `FloatLE`, for finite numbers.  The tests use them in test/pico_tree/common.hpp:10-20,
segment_test.cpp, distance_test.cpp and metric_test.cpp.
-/

namespace Pico.Gtest

/-- A `float` literal (the examples do not overflow). -/
def lit (x : ℚ) : (ieee 23 (-149)).F := (ieee 23 (-149)).ofK x

/-- `EXPECT_NEAR(a, b, e)`: the arguments are converted to `double`, and the difference is computed with them. -/
def near (a b e : (ieee 23 (-149)).F) : Bool := decide (roundTiny 52 (-1074) |a.1 - b.1| ≤ e.1)

/-- Number of the floating point numbers between zero and a positive one: the last place of `x` is
`2^max e (log2 x - p)`. -/
def ordinalPos (p : Nat) (e : ℤ) (x : ℚ) : ℤ :=
  (max e (lastPlace p x) - e) * 2 ^ p + ⌊x / 2 ^ max e (lastPlace p x)⌋

/-- Position in the sequence of all floating point numbers ("biased" integer representation). -/
def ordinal (p : Nat) (e : ℤ) (x : ℚ) : ℤ :=
  if 0 < x then ordinalPos p e x else if x < 0 then -ordinalPos p e (-x) else 0

/-- `EXPECT_FLOAT_EQ(a, b)`: at most four units in the last place apart. -/
def floatEq (a b : (ieee 23 (-149)).F) : Bool :=
  decide (|ordinal 23 (-149) a.1 - ordinal 23 (-149) b.1| ≤ 4)

/-- `FloatLE(a, b)`: less, or almost equal. -/
def floatLe (a b : (ieee 23 (-149)).F) : Bool := decide (a < b) || floatEq a b

end Pico.Gtest
