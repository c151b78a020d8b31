# Formal model of pico_tree: design

Subject: the C++ library in /repo (Jaybro/pico_tree): `kd_tree` (construction, searches, box
search, save/load), its metrics, its node allocator, the Python bindings (`pyco_tree`), and the
`pico_understory` examples (`kd_forest`, `cover_tree`).  The code was read as text; it was not
built or run.

## 1. Trusted base

* Lean 4.33.0's kernel.
* The axioms each theorem depends on: at most `propext`, `Classical.choice`, `Quot.sound`
  (`lean/Verif/Axioms.lean` prints them for every claimed theorem during the build).
* The correspondence between the Lean definitions and the C++ text.  Every model definition cites
  the file and lines it models.
* No own axioms, no `sorry`, no `native_decide`, no `bv_decide`.

## 2. How the code is modelled

| C++ | Lean |
| --- | --- |
| scalar type | a type `α` with decidable `<` and `<=` (no order law in the model, so NaN is possible; most theorems assume `LinearOrder`) and *uninterpreted* `0 1 + - * /`; theorems say which laws they need (`Field` + `IsStrictOrderedRing` for "exact arithmetic", nothing for the comparison-only ones) |
| `std::numeric_limits<scalar>::max()/lowest()` | parameters `big`, `low` with hypotheses where needed (distances `< big`, coordinates in `[low, big]`) |
| point of dimension d, space of n points | `Fin d → α`, `pts : Nat → Fin d → α` with a size `n` |
| `std::vector<index>` segment `[begin, end)` | `List Nat` together with the begin offset |
| `std::partition`, `std::nth_element`, `std::sort`, `std::priority_queue` | functions in structures (`Std`, `StdSort`, `StdPart`, `StdQueue`) carrying exactly the post-conditions the C++ standard gives, for ranges on which the comparison is a strict weak order (`StrictWeakOn`); all theorems quantify over every such structure (a concrete one is given for non-vacuity) |
| `kd_tree_node` graph | `inductive Tree` (leaf with begin/end, branch with split axis and bounds); `Model/Memory.lean` links the same nodes in memory and C55 relates the two |
| recursion without static bound (`create_node`, the loops of the cover tree) | fuel-indexed function with distinct outcomes `ok`, `ub`, `oof` (out of fuel); termination theorems produce the fuel, non-termination theorems show `oof` for every fuel |
| undefined behaviour (null dereference, uninitialised read, `std::prev` of an empty range) | outcome `ub` |
| C++ exception / Python exception | outcome `throws` (`Call`) |
| `static_cast<int>(size_t)` of the stop value | reduction modulo 2^w into the signed range |
| visitor objects | a structure of state, `visit`, `max` |
| the node offset array and running box that the search classes mutate and restore | threaded through the recursion as in the code |
| rounded arithmetic | `Rounding K`: a rounding function of an exact field, every operation rounded; `ieee p e` is round to nearest even with `p + 1` bits and gradual underflow at `2^e` (`float`: `ieee 23 (-149)`, `double`: `ieee 52 (-1074)`), without overflow |
| complete floating point numbers | `Fl Φ` over a `FloatFormat`: NaN, two infinities, finite numbers up to `big`; comparisons with NaN are false, results above `big` are infinite |
| signed integer scalars | `MachineInt`: a range `lo..hi`, an operation whose result leaves it has an arbitrary value of the type; `wrapping w` |
| binary streams | byte lists over any byte type, with arbitrary fixed width codecs for `T_`; padding bytes are arbitrary; reading behind the end is the outcome `eof`, except in `Model/Faulty.lean`, where the code goes on with what the memory held (C112) |
| node allocator | heap of chunks with addresses chosen by an arbitrary `new`; allocator objects with head, chunk and index as in the code |
| NumPy arrays | block of memory, shape, strides (in elements), flags computed as NumPy does |
| `#pragma omp parallel for` | every interleaving of the reads and writes of the iterations |
| Python object lifetimes | objects, references (`keep_alive` adds one), variables; an object is freed when it is not reachable from a variable |
| cover tree nodes | `inductive CNode` (nodes are values, each node has one parent) |
| random choices (shuffle of the cover tree, normal vectors of the forest) | arguments over which the theorems quantify |

### Files

`Model/` one file for each part of the code: `Basic`, `Metric` (distance.hpp, metric.hpp), `Box` (box.hpp,
segment.hpp), `Std`, `Tree` (kd_tree_node.hpp, kd_tree_data.hpp), `Builder` (kd_tree_builder.hpp), `Visitor`
(search_visitor.hpp), `Search` (kd_tree_search.hpp), `KdTree` (kd_tree.hpp), `Rounding`, `Float`, `MachineInt`, `Stream`
(stream_wrapper.hpp, kd_tree_data.hpp), `Faulty` (the same on failing streams), `Header` (Python file header), `Memory` (memory.hpp), `Array` (map.hpp,
opencv_traits.hpp, py_array_map.hpp), `DArray`, `Python` (_pyco_tree/kd_tree.hpp), `Parallel`, `Lifetime`
(keep_alive), `Eigen` (eigen3_traits.hpp), `Cover`, `Forest` and `Matrix` (examples/pico_understory), `Counter` (the custom visitor of the examples), `Formats` and `Uosr` (file readers and writers of examples/pico_toolshed, conversion programs), `ForestExample` (examples/kd_forest), `TestHelpers` (test/pico_tree/common.hpp), `IndexType` (limits of the index type). `Spec*.lean` are the specifications, `Proof/` the
lemmas, `Props/` the theorems that MANIFEST.json names, `Ref.lean` concrete instances that show that hypotheses
can be met.

### Contracts used as hypotheses

* `Representable`, `InRange`: coordinates (and given start bounds) lie between `lowest()` and `max()`; `MidOk`: the
  computed midpoint of an interval lies in it (only for the midpoint rule). `CircleOk`: coordinates of the circle
  axis lie in `[0, 1]`.
* `EuclideanAdditive`, `TopologicalAdditive`: what a custom metric has to satisfy (C15); shown for the metrics of
  the library and of the examples.
* `SplitSafe`: differences and midpoints of coordinates do not overflow; shown for exact fields, 32-bit-like
  integers and rounded arithmetic. `BoundsContain`: start bounds contain the points.
* `Shrinks`: `max()` of a visitor never grows (C14); shown for every visitor of the library.
* `Rounding`, `RoundedLaws`: monotone, symmetric, twice a scalar is a scalar, a difference of two scalars is never
  rounded to zero, half of a rounded difference does not exceed the difference; shown for `ieee p e` and `binary p`.
* `Platform.Holds`, `Codec`: the values fit the types that are written; `Malloc`: `new` returns unused addresses.
* `Valid`: the elements of an array lie in its block of memory.
* `Leveling`: powers and logarithms of the cover tree, arbitrary functions; `Leveling.exact` with integer levels
  and minus infinity for C50.

### Behaviour of software outside of the repository that is assumed

C++ standard library contracts as above; NumPy: flags of contiguity (`_UpdateContiguousFlags`), `resize`
(`PyArray_Resize` keeps C order for new memory); pybind11: `keep_alive<n, p>`, casters reject arrays of another
element type, `py::slice::compute`, the two passes of `cpp_function::dispatcher` and the casters of `py::array`,
`py::int_`, `py::float_`, `bool` (C117), `as_unsigned` (C118); CPython: slice semantics (`PySlice_Unpack`, `PySlice_AdjustIndices`),
reference counting. A cell of a vector result is one shared variable in the model of parallel loops.

### Not modelled

Templates and the overload resolution of C++ (that of pybind11 is modelled in C117), the sign of zero and the rounding modes other than the one of the theorem
(arithmetic is one of: exact ordered fields; IEEE rounding with gradual underflow but without overflow; bounded integers; complete
floating point numbers with infinities and NaN; arbitrary uninterpreted operations - each theorem says which),
integer overflow of indices except where C93 states the limits (elsewhere n < 2^31 is assumed), exceptions from allocation except in C113, compile time traits (`space_traits`,
`point_traits`) except for what `dynamic_space` passes on (C151) and what the tests of the adaptors compare (C152), Eigen/OpenCV/pybind11/NumPy themselves, opening of files, timing. Of the examples: the benchmarks of other libraries, the conversion of text
to numbers and back (`strtod`, `num_get`, `operator<<`; C107 and C108 say what is asked of them).

## 3. Properties: model and proof plan

* **C01 Nearest neighbor is exact.** Tree, builder and Euclidean search modelled function by function. Generic search theorem by induction on the tree (visited ++ skipped is a permutation of the leaf indices; skipped points are farther than the final max), tree invariant (bounds contain the points, left_max <= right_min) by induction over create_node, then instantiate the visitor.
* **C02 k nearest neighbors into a vector are exact.** Same generic theorem; the buffer of search_knn refines 'insert in a sorted list and keep k'. Spec: sorted list of all distances, take k.
* **C03 k nearest neighbors into an iterator range.** As C02 for k <= n. For k > n the tail keeps caller memory: negation with a witness, `_partial` theorem for the first n entries.
* **C04 Radius search returns exactly the open ball.** Generic theorem with constant max.
* **C05 Approximate nearest neighbor stays within the promised ratio.** Generic theorem with the scaled visitor; scale algebra in an ordered field.
* **C06 Approximate k nearest neighbors stay within the promised ratio position by position.** Generic theorem; position-wise comparison of sorted lists.
* **C07 Approximate radius search is sound and complete up to the ratio.** Generic theorem with the scaled visitor.
* **C08 Box search is exact for Euclidean metrics.** search_box modelled with the running box; induction on the tree with the cell invariant. Linear order only.
* **C09 Box search is exact for topological metrics, including wrap-around boxes.** Same with segment_r1/segment_s1 and metric_box_map.
* **C10 Searches on the circle SO(2) are exact.** search_nearest_topological modelled; lower bound from segment_s1::distance on [0,1].
* **C11 Searches on SE(2) are exact.** Instance of the topological theorem with axes line, line, circle.
* **C12 Searches with the maximum metric are exact.** The code sums the per-axis offsets, which is no lower bound of the maximum: FALSE in d >= 2. Negation with a witness; `_partial`: exact for d = 1, within factor d in general. `c12_tight` (Props/MaxNormTight) shows that this factor is the best one: for every d and every c < d it constructs d + 1 points, follows the builder level by level (one point is cut off per axis) and the search down to the level where the summed offsets exceed c.
* **C13 Searches with the minimum metric are exact.** FALSE in d >= 2. Negation with a witness; `_partial` for d = 1. `c13_unbounded`: two points, in any dimension from two on; the one reported is at distance c, the other at distance zero.
* **C14 Custom visitor contract.** The generic search theorem itself, plus the order-insensitivity corollary.
* **C15 Custom metric contract.** The generic search theorem for abstract additive metrics, instantiated with the two example metrics.
* **C16 Every point is stored in exactly one leaf.** Induction over create_node.
* **C17 leaf_ranges lists all non-empty leaves.** FALSE with empty leaves (midpoint rule): the else branch dereferences the null children. Negation with a witness; `_partial` for trees without empty leaves (median, sliding).
* **C18 max_leaf_size is respected.** Induction over create_node, for stop values that fit the index type; FALSE beyond (narrowing): negation.
* **C19 max_leaf_depth is respected.** As C18.
* **C20 Median and sliding midpoint never produce empty leaves.** Induction over create_node.
* **C21 The median rule gives balanced trees.** Induction over create_node.
* **C22 Construction terminates without undefined behaviour.** Fuel bound by induction on segment length / remaining depth.
* **C23 Construction with the midpoint rule and max_leaf_size terminates.** FALSE for duplicates: every fuel runs out. Negation; `_partial`: termination without such points, by induction on the number of halvings; with rounding (`Proof/MidpointRounding.lean`) each split shortens a side by a constant factor unless the side is as small as the rounding error of the coordinates, where the recursion can get stuck (`c23_stuck_false`).
* **C24 Answers do not depend on how the tree was built.** Corollary of the exactness theorems (both equal the specification).
* **C25 Start bounds only influence performance.** FALSE for search_box when bounds do not contain the points: witness. `_partial`: nearest/radius answers for all bounds, box answers for containing bounds.
* **C26 Answers do not depend on what the output held before.** Corollary of exactness plus direct theorem that the result functions ignore the prior value.
* **C27 search_knn is well defined for every k.** FALSE: k = 0 is `ub`. `_partial` for k >= 1.
* **C28 Saving and loading returns the same tree.** Codec round-trip by induction on the tree. `Props/Stored.lean`: which scalars a tree holds, by induction over its creation, so that only these need an encoding.
* **C29 A saved tree is self-delimiting in the stream.** Round-trip with an arbitrary suffix; strict-prefix theorem.
* **C30 The Python file header round-trips and foreign files are rejected.** Model of pkd_header over byte lists.
* **C31 Node memory is never handed out twice and is freed exactly once.** Heap model (set of live chunks with ids), invariants over operation sequences. That every operation ends holds for all programs: each step of `release` deletes a chunk (`c31_ends`).
* **C32 Move assignment of a tree neither leaks nor shares node memory.** FALSE: move assignment overwrites head_ without release; moved-from allocator keeps chunk_/object_index_. Witnesses; `_partial` for move assignment to an empty resource.
* **C33 Python batch queries equal the single queries, whatever the thread schedule.** Loop iterations as writes to disjoint slots; every interleaving gives the same array.
* **C34 Python k nearest neighbor output has a meaningful entry in every cell.** FALSE for k > npts; `_partial` for k <= npts.
* **C35 Python k nearest neighbor output follows the documented layout.** Model of ensure_size and array strides; FALSE for F order (numpy resize of an empty array gives C order) and for outputs of equal total size but different shape; `_partial` for C order.
* **C36 DArray indexing and slicing follow Python semantics.** 64-bit modular arithmetic on `BitVec 64`/Int.
* **C37 Python box queries pair corners correctly and reject odd input.** List model of the batch loop.
* **C38 Array views address the intended coordinates.** Index arithmetic; cv::Mat with padding between rows is FALSE: witness.
* **C39 Python rejects queries of the wrong dimension.** FALSE for dynamic dimension; `_partial` for static.
* **C40 Query types agree with each other.** Corollaries of exactness.
* **C41 Distance functions obey the laws users rely on.** Direct algebra on the metric models.
* **C42 The midpoint rules split the longest side in half.** Invariant over the chain of cells (sides are s or s/2).
* **C43 Leaf order follows the N-order curve for hyper cubes.** Cell-order invariant by induction; spec by lexicographic comparison of interleaved digits.
* **C44 Results are genuine under any arithmetic.** The generic theorem without the lower-bound part; no algebraic laws.
* **C45 One-dimensional searches are exact under floating point rounding.** Generic theorem instantiated with rounded operations in d = 1.
* **C46 Searches are exact under floating point rounding in any dimension.** Look for a concrete rounding counterexample in d = 2; the exact-arithmetic theorem stays.
* **C47 kd_forest priority search is exact given enough leaves, and sound always.** Model of the priority search with an explicit queue (one for each tree, as ties depend on the addresses of its nodes) and of the Householder reflection.
* **C48 cover_tree searches are exact.** Model of cover_tree search; induction with triangle inequality.
* **C49 cover_tree construction keeps every point exactly once.** Model of the builder on rose trees with the max_distance update.
* **C50 cover_tree construction terminates for duplicates.** FALSE: coinciding first points give level -inf; witness on the loop guard.
* **C51 Loading any file terminates.** Byte-wise reader modelled with end of data; strong induction on the length of the data, locality by induction on the reader.
* **C52 Segment distances.** Direct algebra on segment_r1/segment_s1; spec: distance to the nearest point of the set.
* **C53 Segment containment.** Spec: set inclusion.
* **C54 A file of another dimension is not accepted.** FALSE: the stored dimension is not compared. Witness; `_partial` for run time dimensions.
* **C55 Linked nodes in memory are the tree.** Heap with chunks; representation predicate (separation: distinct objects, frame of all other objects), induction over create_node and read_node.
* **C56 Buffer protocol.** Index arithmetic for C and F order.
* **C57 Only two dimensional arrays.** FALSE: `shape(1)` is read before the number of dimensions is checked. Witness; `_partial` for the other cases.
* **C58 A tree never outlives its points.** Transition system of a Python program, invariant by induction over programs. FALSE for load_kd_tree (no keep_alive).
* **C59 Views never outlive a DArray.** As C58. FALSE for iteration and reuse.
* **C60 Wrong types and read-only outputs are rejected.** Decision logic of the three batch searches.
* **C61 Visitors of the forest see points once.** FALSE for two trees; `_partial` for one.
* **C62 Householder reflection.** Algebraic identities.
* **C63 Forest distances for every metric.** FALSE for metric_l1.
* **C64 Approximate searches on SO(2) and SE(2).** The generic search theorem of C05-C07 with the topological lower bound.
* **C65 Cover tree levels and separation.** Invariant `Inv` through insert, rebalance, raise and update (`Proof/CoverInv.lean`), any base.
* **C66 Cover tree covering.** Same invariant with the covering part; FALSE for base < 2: `_partial` for base >= 2.
* **C67 Cover tree nearest ancestor.** As C66; FALSE for base < 2.
* **C68 Floating point searches on a grid.** Guards of the nodes are coordinates of points (`Corners`), so every partial sum is on the grid (`Proof/Grid.lean`); median and sliding midpoint rule (the midpoint rule uses the rounded split values as guards).
* **C69 Integer scalars.** Same proof with `MachineInt` instead of `Rounding`; the side test needs `4B` to fit.
* **C70 The circle under rounding.** As C45: in one dimension the running distance is the newest offset; the computed distance to a segment is a lower bound by monotonicity of rounding (`Proof/TopoRounding.lean`).
* **C71 SE(2) and the torus on a grid.** As C68 with the topological offsets.
* **C72 Work and depth of the construction.** `visits` (sum of node sizes) is bounded by size times height; a sliding midpoint split that does not separate points by their coordinate takes away a single point, so copies of a point stay together up to one (`Proof/Work.lean`).
* **C73 Byte order.** `big_endian_to_native` as shifts and ors on bit vectors; each bit of the result is traced to a bit of a byte (`Proof/Formats.lean`). The native byte order does not occur.
* **C74 Binary files.** A file is a byte list or missing; element codecs as in C28. FALSE for the empty vector.
* **C75 MNIST.** Decision logic of the header; complete characterisation of accepted files with a header, and of those with undefined behaviour. FALSE: 4 x 196, overflow, short files.
* **C76 xvecs.** Row reader with codecs; suffix test with `size_t` wrap-around. FALSE for other dimensions.
* **C77 Poses.** Algebra: product of three rotations; s^2 + c^2 = 1.
* **C78 Scan lines.** `operator>>` that keeps the old word at the end of the line. FALSE for short lines.
* **C79 Frame.** A space is a function on all indices of which only the first n are points; non-interference by congruence of construction (induction on the fuel) and search (induction on the tree). The construction needs that the standard algorithms only look at elements of their range (`Std.Local`, shown for the reference library).
* **C80 Loading with another space.** From C28 and C16. FALSE for smaller spaces.
* **C81 NaN points.** `Model/Float.lean`: numbers with infinities and NaN over a rounding; the model definitions only need `<` and `<=`, no order law. Invariants of the traversal that hold for any comparison (`Proof/Nan.lean`). FALSE for boxes, the maximum metric, and the points beside a NaN point.
* **C82 NaN queries.** As C81. FALSE for boxes.
* **C83 overflowing sides.** `Proof/Embed.lean`: the construction commutes with an embedding of scalars that keeps order, differences and halves. `Proof/Ext.lean`: the numbers without NaN are a linear order embedded in the floating point numbers, so the order theorems (C08, C09, C16) carry over. FALSE for the midpoint rule (endless recursion) and for points at infinity on every axis.
* **C84 overflow during a search.** `Proof/Saturate.lean`: simulation between the numbers without a largest one and those with infinities. Invariants: the node distance and the offsets are finite and not negative, an offset is at most the distance of every point of the cell on its axis. A new offset that overflows prunes with infinities; without them it prunes or visits points the visitor ignores. FALSE for coordinates above half of the largest number.
* **C85 error of the topological search.** `Props/TopoError.lean`: the bound of C46 needs from the metric only that the node distances are rounded sums of per axis terms no larger than those of the points (`nearlyExact_of_guard`); shown for the sums of squared one dimensional distances.
* **C86 error against exact arithmetic.** `Props/TrueDistance.lean`: the computed distance differs from the exact one by one factor per rounding (difference, square, d additions); composed with the bound of C46. Circles are left out: `1 - |x - y|` cancels.
* **C87 Eigen.** `Model/Eigen.lean`: matrices with inner and outer stride and storage order, vectors with a stride; `data()[j]` against `operator()`. FALSE with an inner stride other than one.
* **C88 rotated copy.** `Model/Matrix.lean`: memory of `matrix_space` filled by the two loops of `rotate_point`, where the input may lie in the memory written. Induction over the written coordinates and over the points; the result is the function `rotatePoint` of C62.
* **C89 counting visitor.** `Model/Counter.lean`. The search with the counter is related to the search without by `searchNearest_rel`; the count is the length of the sequence of calls of C14.
* **C90 lookup.** `Props/Lookup.lean`. On the path to a copy of the query every contribution is at most `one(0) = 0`, so the offsets and the running distance stay zero (`0 - 0 + 0`); such a subtree is skipped only if `max()` is negative (`searchNearest_skip`).
* **C91 agreement.** `Props/Consistent.lean`. Two runs of the traversal with related visitors (`searchNearest_rel`, no order law); induction over the tree for two radii; sorted lists for the exact case.
* **C92 approximate searches with rounding.** `Props/ApproxError.lean`. The visitor stores `rd(dst * rd(1 / e)) <= dst` by monotonicity, so visited points need no error term; skipped points use `NearlyExact` of C46/C85.
* **C93 index type.** `Model/IndexType.lean`, `Props/IndexType.lean`. `std::iota` with its `int` counter, the casts of the leaf bounds and the loop over a leaf on machine integers; refinement to the natural numbers of the tree model from C16.
* **C94 cover tree with rounding.** `Proof/CoverSearch.lean` (`Cover.searchNearest_low`), `Proof/LowFinal.lean`, `Props/CoverRounding.lean`. The search lemma of C48 is stated with an abstract relation "x counts as a lower bound of the distance of point i"; the exact relation gives C48, the one with a slack gives C94. The slack is bounded through the rounded triangle inequality of `metric_l1` and `metric_l2`; `std::sqrt` is a function with a relative error of at most u.
* **C95 error ratios below one.** `Props/Ratio.lean`. For 0 < e <= 1 the search skips only points whose distance, and therefore whose scaled distance, is at least `max()`: the exact visitor lemmas apply to the scaled distances. NaN and zero with the complete floats of C81.
* **C96 kd_forest in floating point arithmetic.** FALSE far from the origin. `Proof/ForestRounding.lean`: the keys of the queue exceed the rounded box distance by at most the factor of two roundings for each level, so the pruning is nearly sound (`prioritySearch_low` with a slack). `Proof/RotationError.lean`: error of `rotate_point` against the exact reflection, in Euclidean length. `Props/ForestRounding.lean` puts both together, and bounds the length of the vectors made by `normalize`; the C++ `std::sqrt` is a parameter with a relative error.
* **C97 near points on a grid.** `Proof/GridNear.lean`, `Props/GridNear.lean`. The invariant of the traversal in `Proof/Grid.lean` is stated point by point, so it can be kept for the near points only: their boxes have exact running distances. Distances beyond the limit are at least the limit, as rounding is monotone; a search whose final `max()` is below the limit is therefore complete.
* **C98 the kd_forest example.** FALSE with ties and stale files. `Model/ForestExample.lean` (loop of the driver; the file is a given list), `Props/ForestExample.lean`. Built on C01 and C47. Not modelled: timing, console output, the final division (0/0 for an empty test set).
* **C99 the oracles of the tests.** FALSE as stated. `Model/TestHelpers.lean` models the helpers as functions of the results of a search; `EXPECT_FLOAT_EQ` and `FloatLE` are parameters. `Props/TestHelpers.lean` relates them to the specifications in `Spec.lean` and to the tree (C02, C04, C06, C07, C08).
* **C100 weaker demands never cost more.** The points looked at are the log of a visitor that also records its calls. `Proof/Looked.lean` runs two searches in parallel: as long as the first has the smaller maximum, it enters no cell that the second skips, and the points that only the second sees are too far to matter for the maximum of the first. The maxima are compared by counting (`CountMax`): the maximum is at most `a` exactly if `k` of the points seen are within `a`.
* **C101 a larger ratio is faster.** FALSE for nearest neighbors; witness over the rationals. True for the radius search (C100).
* **C102 a search opens the leaves near the query.** Cells are defined in `SpecCell.lean` by recursion on the tree alone. Upper bound (`built_opens`): the offsets kept by the search are the summands of the distance from the query to an entry place of the node, which lies in the cell; going to the other child moves the entry place to its border, and there the test against `max()` is the bound. Lower bound (`built_reaches`): the offsets never exceed the summands of a place of the tight cell. Both for every visitor.
* **C103 regular nearest ancestor cover tree.** `Model/CoverRegular.lean` models the branch of the builder that the header switches off. `insert`, `insert_covered` and `rebalance` call each other; one induction on the fuel shows that every call that returns keeps the multiset of points (`insertRegular_extends`). The recorded distances are computed at the end, so the searches are exact by the lemmas of C48 (`CoverTree.Made`). The rest of the statement is FALSE (witnesses of three to eight points with base two).
* **C104 what a box search reads.** A tree is searched with other coordinates `pts'` in the place of those it was built from; a point is read if this can change its answer. `searchBox_reach` (induction on the tree, with the running box) says for both kinds of metrics which points are judged by `pts'`; `boxReach_inside`, `_outside` and `_border` turn this into the tight cells of C97.
* **C105 the promised bound.** On a line two leaves with a place on both sides of an end of the query are the same leaf (`same_leaf`), so at most two are read. In the plane the bound is FALSE: the rules split the longest side of the cell, and for points along an axis all splits are across it (`comb_splits`). For topological metrics `intersects_left` and `intersects_right` are true for every node, so nothing is left out.
* **C106 moving and scaling.** `createNode_similar` is an equation between the two runs of the builder (same fuel, same outcome); it needs that the empty boxes of the code stay empty boxes (`inverseMax_fitPt`) and that halving commutes with the factor (`HalfOk`). `searchNearest_similar` is a simulation between the two traversals with any visitors whose bounds agree, used with recording visitors so that the points read are compared too.
* **C107 directories of scans.** The pattern is parsed from its text (`regexItems`), so that the unescaped dot is in the model; `c107_names` says which names match. Poses are read by a model of `>>` in which variables are indeterminate until they are assigned. The file system is a list of entries; `num_get`, `strtod`, `sin` and `cos` are parameters.
* **C108 text files.** `RoundedDecimal` is the specification of printing with ten significant digits; `ieee_near` shows that a number within 2^-(p+3) of a representable one is rounded to it. Texts are compared word by word. Infinities, NaN and the sign of zero are not covered.
* **C109 sizes.** `Used` counts the objects an allocator has handed out against the chunks in memory; the model of `create_node` and `read_node` with memory (C55) is followed together with the functional one. The bytes are counted along `write_node`.
* **C110 unit tests.** The expectations of the test files are replayed on the model in single precision. This also checks the model: the expectations were written for the real code. `Model/Gtest.lean` has the comparisons of the test framework after its documentation. Fixed inputs are evaluated by the kernel; where `std::partition` or `std::nth_element` take part, the proof is for every implementation. The tests with random points are theorems about all points (C99, `c110_so2_box`, `c110_so2_knn`, `c110_leaf_ranges_partial`).
* **C111 powers of two.** `Rounding.Scales` says that a factor commutes with the rounding of sums; `Proof/Scale.lean` follows the two searches side by side. The running distance drifts by rounding (C46), so that the comparison with the largest number needs the bound `Drift`. The construction is an `Embeds` (C32). `binary_scales` and `ieee_scales` are the two instances. FALSE with gradual underflow in general.
* **C112 failing streams.** `Model/Faulty.lean` models `istream::read` and `ostream::write` with their state bits, which the code ignores: objects that are not read keep the bytes of the memory, a device takes as many bytes as it likes. `Refines` and `Attempts` relate this to the readers and writers of C28; `Cut` follows a file that is cut through the tree. FALSE: nothing is checked after the file is open.
* **C113 memory that runs out.** `Model/Exhausted.lean` repeats `create_node`, `build_kd_tree::operator()`, `read_node` and `load` with a `new` that may fail (`Try`), all vectors and chunks on one heap, and the destructors of each scope. `Tracks` compares them with the functions that know nothing of memory; the invariant `Mem` says which addresses belong to the allocator, to the local vectors and to others. Not modelled: allocations of the standard library other than the buffers of `std::vector`, exceptions of the space or of streams, allocations during searches, and that a space which was moved into the constructor is lost when it throws.
* **C114 other axes.** From exactness: two exact trees over points at the same distances give the same answers (`sameNeighbors`). The moves are given by orthogonal matrices (`c114_l2`), permutations and signs of the axes (`moveAxes`), whole turns (`WholeTurns`) and rigid motions (`PoseMoved`). Box search on the circle: `ahead` is the way forwards from the start of the arc.
* **C115 another metric.** The construction and the file take no notice of the metric (`c115_make`), so C28 and C15 apply to the loaded tree. `c115_false` is a file of `metric_se2_squared` that a tree of `metric_l2_squared` accepts.
* **C116 time of a search.** `Spec.searchTrace` lists the nodes for which `search_nearest` is called; it belongs to the search because the points shown to the visitor are those of the leaves on the list (`c116_trace`). On a line the leaves are opened from the query outwards, and a leaf on one side is opened only if fewer than `k` points on that side were seen (`around_opened`). The chain is made of points at `2 ^ i - 1` (`c116_sliding_false`). That equal points are all looked at follows from C102, and so does that a query beside points on a line parallel to an axis looks at all (`Props/FarQuery.lean`): the tree is split along this axis only (`Created.splitsOnly`), so that every tight cell reaches to the height of the query.
* **C117 overloads of the bindings.** `Bind.resolve` is the dispatcher of pybind11 (two passes, the second with conversions) on the lists of overloads of def_kd_tree.cpp. The order of the keywords does not matter (`resolve_perm`); the rest is a case distinction over the overloads. What was passed is stated by `given` (position, else keyword). `None` as any argument is a `TypeError`, for every list of overloads (`c117_none`). The rules of the dispatcher and of the casters are assumed.
* **C118 any integer k.** `Model/PyCount.lean` repeats `search_knn` with 64 bit sizes and offsets and limited memory. Below 2^64 results it equals the model with unbounded numbers (`c118_same_partial`), so that C33 applies. Otherwise the loop reaches an offset behind the end of the output (`forRange_knn64_ub`). What pybind11 makes of an integer that does not fit (`as_unsigned`) and that NumPy refuses negative and too large sizes is assumed.
* **C119 from arrays to arrays.** `Model/PyTree.lean` puts the models of the array views (C38), the builder, the searches, the header and the streams (C30, C50), the overloads (C117) and the 64 bit sizes (C118) together to the class that Python sees. `Made` are the trees that come from the constructor or from a saved file. All of them are finished trees over the rows of the array they were given (`over_of_made`), so that the theorems about searches apply; the rest is the layout of the output (`knn_rows`).
* **C120 another scalar type.** The readers of C51 never raise, whatever the bytes are (`readData_ne_throws`), so that the header decides alone (`c120_refused_iff`). The witness `c120_false` is evaluated with numbers that stand for the bits of `float` and `double`.
* **C121 another dimension.** `Model/Reads.lean` is a second model of the searches in which every access of a query, a corner, a point or `indices_` is a read of a list that is undefined outside of it, and in which the metrics take the iterators they take in C++. `Proof/Reads.lean` shows by induction on the tree that with the right lengths it is the search of `Model/Search.lean` (refinement), and that it is undefined once every leaf is. The `static_assert`s are the Boolean functions `nearestCompiles`, `boxCompiles`, `boundsCompile` of the two dimensions.
* **C122 metrics of a fixed dimension.** `metricSO2At`, `metricSE2SqAt` are the two metrics as the compiler instantiates them for points of another dimension. The partial theorems put C121 and C10, C11 together.
* **C123 points that move.** `Model/Moved.lean` replaces the points of a built tree and keeps everything else, as a reference wrapper or a view does. `Props/Moved.lean` proves the guard of the pruning (`Guard`, Proof/Search) for the new points from `left_max ≤ right_min` of the old ones and the condition on the new ones; the box search is followed once more by induction on the tree with the old points for the structure and the new ones for the contents.
* **C124 height and resolution.** `Proof/Spread.lean` follows the construction with one exponent per axis: the side of the cell along axis j is shorter than g r^(e j). A node that is split holds two points that differ, so its longest side is at least G, the exponent of that axis is not zero, and it goes down by one in both children; a child that the sliding rule fills with one point is a leaf. `ShorterBy` is what is needed of the arithmetic: both parts of a side of at least G are shorter by the factor r. It is proved for exact halves (r = 2), for rounded ones (r = 5/4, from C23), and for integers (r = 3/2, sides of at least 2). `c124_stuck` is the negation: the midpoint is computed as the lower side of the box.
* **C125 views of memory.** `Model/View.lean` has the constructors and accessors of `map.hpp` that the bindings do not use. `IsView v xs` and `IsSpace m d pts` say that the view is the list of scalars, or of points; `HoldsAt` says that the memory has them, with anything before and behind. `c125_coord` connects the rows with `SpaceMap.coord`, which C38 and the Python claims use. The tests point_map_test.cpp, space_map_test.cpp, space_map_traits_test.cpp are replayed as examples. Not modelled: const and non-const element types, `opencv_mat_map::mat()`.
* **C126 budget of the forest.** `priorityTrace` records the distances and leaves of the nodes taken from the queue; `c126_order` says that the distances ascend and that the visitor sees exactly the points of these leaves. For the comparison two runs on one tree are simulated: what only the first one puts into the queue is out of reach of the second, so they visit the same leaves until the second has nothing in reach any more (`Better`, `priorityLoop_better`). `StdQueue` leaves the order of equal distances open, even dependent on what else is in the queue; the comparison assumes `StdQueue.Ordered` (the pairs with a pointer of kd_tree_priority_search.hpp:31, 135-140 are totally ordered). Adding trees compares two forests in memory; that equal distances are decided in the same way in both is assumed. Not claimed: rounded distances, `search_knn`.
* **C127 boxes in memory.** `Model/BoxMem.lean` runs the loops of `box_base` on one memory of scalars, access by access; a read or write outside is undefined behaviour. `BoxAt m b B` and `PtAt m p x` say that the memory has a box or a point; `OnlyBox` says what may change. The theorems are refinements to the operations of `Model/Box.lean`, which all other claims use, and need no order law; `c127_fit_order_partial` gives the meaning in an order. `fit` is proved for every position of the point that does not begin before an end and reach into it, so also for the ends of the box itself. The test `Fit` of box_test.cpp is replayed. Not modelled: aliasing through other types, alignment; `std::array` members are taken as adjacent.
* **C128 moved trees.** `Model/TreeObj.lean` has objects of the class `kd_tree` in the memory of C113: construction (`buildTry`, `loadTry`, which may throw), the defaulted move operations member by member, destruction. `World.look` is all that a const member function can read of an object: point set, indices, box, and the nodes in allocated memory from the root on. `SpecTreeObj.lean` says what the user thinks of each object (`absent`, `moved`, `holds D space`), without memory. `Reach` are the states of all programs that follow `MayDo`; the invariant (`Inv`) gives each object its own chunks and vectors. `c128_freed_partial` says exactly which memory is left. Not modelled: the memory of the point set (its move is a parameter `left`), stale nodes in memory that was allocated again for a vector.
* **C129 walking the nodes.** `Model/Walk.lean` follows `search_nearest`, `search_box`, `report_node`, `insert_leaf_range` and `write_node` from pointer to pointer: a pointer may be null, its memory not allocated, its node not assigned, the union may hold the other member; each of these is undefined. Indices, queries, points and corners are read as in C121, objects and vectors as in C128. By induction over the nodes (`Repr`) the functions equal those on trees that are values, with a recursion no deeper than the height; with the invariant of C128 this holds for every object that holds a tree after any program, and with C121, C08, C09 and C15 the answers are the true ones. Simplified: a vector is checked to be allocated when the function starts; any use of a box whose coordinates were moved away counts as undefined.
* **C130 cover tree nodes in memory.** `Model/CoverMem.lean` follows the builder, the copy, the update of the recorded distances and the search of the cover tree from pointer to pointer: nodes live in the blocks of `static_buffer`s; a pointer to a node that does not exist is undefined, and so is a loop over a vector of children that changes while the loop runs; a full buffer moves its nodes to a new block. `SpecCoverMem.lean` says when memory holds a tree at a pointer, with its footprint (`Stored`). By induction each function on pointers is shown to refine the one on values of `Model/Cover.lean` (`insert_tree`, `copy_tree`, `update_tree`, `searchNearest_eq`): same tree, footprint extended by the new node only, everything else unchanged. With C48 the answers are the true ones. Simplified: the storage of the vectors `children`, `to_move`, `to_stay` and `sorted` is not in the memory model (they are values); `std::partition` and `std::sort` are natural in the type of the elements; members that the code leaves unset have an arbitrary value. Not shown: the absence of undefined behaviour in runs that never end.
* **C131 shape of cover trees.** `SpecCoverShape.lean` counts the nodes on the longest path (`levelCount`) and the children of nodes (`AtMostChildren`). Height: raising the root stops once its cover distance reaches the distance of the new point, so with a base of at least two the root level stays below one that is fixed by the largest distance (invariant `RootLow` over all insertions, `Proof/CoverShape.lean`); by C65 levels drop by one per step, and by C66 a node whose cover distance is below the smallest distance has no descendants. Degree: the children of a node lie in a ball of its cover distance (C66) and are apart by more than a `base`-th of it (C65); rounding their coordinates to a grid maps them injectively into a box with `(floor(2 base k) + 1)^d` cells. Depth of searches: `Cover.searchNearest` gives the same result with any number of nested calls from `levelCount` on, so C48 holds with a stack of constant depth.
* **C132 DArrays as values.** `Model/DArrayObj.lean` has the C++ object (`impl_`: null or a typed vector of vectors) with all its members, and programs over a memory in which every inner vector is a block with a capacity: a search with an output refills blocks that are large enough and moves the others, slices copy, NumPy arrays hold block numbers. `SpecDArrayObj.lean` reads off what a program sees: `contents` of a `DArray`, what a NumPy array shows, whether its memory was freed. The invariant `Inv` (`Proof/DArrayObj.lean`): no block belongs to two elements, all blocks of arrays exist, a NumPy array whose block exists belongs to the element it was made from. Each statement is then described by its effect on `contents` alone, in every state that a program can reach. `c132_reuse` (with the second invariant `Mem.Fits`, no vector above its capacity) says that a NumPy array outlives a search into its `DArray` that gives the element no more results than it had, and shows the new ones. Exceptions inside of a search (`std::bad_alloc`) and NumPy's own negative indices are not modelled.
* **C133 forests in memory.** `Model/ForestMem.lean`: a forest is a list of tree objects in the memory of C128 (`World`); building a tree constructs a local, moves it into a temporary and into the vector, and destroys both; a search reads the rotation, the rotated points, the indices and the nodes with checks, and its queue holds pointers. `SpecForestMem.lean`: a forest is a list of trees (values), what the operations do to these, and the reachable states `FReach`. `Proof/ForestObj.lean`: every operation is a sequence of operations of C128 that loses no chunk; the invariant `FInv` says which object holds which tree, that no object belongs to two forests, and that every object belongs to one. `Proof/ForestMem.lean`: the parts of a tree without empty leaves are in bijection with its nodes, so a queue of pointers is a queue of trees (`StdQueue.pull`; also if the queue orders equal distances by address), and the two searches go in step. `Forest.searchNearest` (C47) has a queue for each tree since the addresses differ from tree to tree. The order of pointers into different chunks by `operator<` of `std::pair` is unspecified in the standard ([expr.rel]); `StdQueue` does not depend on it.
* **C134 several trees.** No new model: `SpecMerge.lean` says what a division of the points is (lists of indices whose concatenation is a permutation of all) and how neighbors of a part are renumbered; `Proof/Merge.lean` combines lists of neighbors (a counting argument for the k nearest); `Props/Merge.lean` applies it to the trees, each with its own options, through the exactness of C01-C04, C08-C11 and C45.
* **C135 moving the query.** `Props/Lipschitz.lean`: if all points within `a` of one query are within `b` of another, the searches follow (`Follow`); the triangle inequalities of C41 (and Cauchy-Schwarz for the squared metrics) give `a` and `b`. A counterexample for `metric_lpinf`.
* **C136 example programs.** `Model/Examples.lean` writes the programs of `examples/kd_tree` as functions of the standard library and the content of the output variable. `Props/Examples.lean`: small integers are exact in binary32 and binary64, so the exactness theorems on grids (C68, C90) apply; the rest is decided on the few points of each program, or by arithmetic for the counted arrays. The comments on the shape of the trees follow from C17 and C18.
* **C137 lengths.** `Props/Lengths.lean`: the metrics are powers of lengths (`one x = |x|^P`), taking powers is monotone on lengths, so C01-C07, C10, C11 and C64 turn into statements on lengths (`InLengths`). The lengths are Mathlib's distances; `circle_eq_dist` shows that the circle distance of the specification is that of R/Z.
* **C138 arrays of floats.** `Props/PyFloat.lean`: `knn_rows_of_tree` and `radius_rows_of_tree` carry a property of the C++ search over to every form of the Python call; the properties are those of C44, C45, C68, C86 and C90. `KnnCalls` and `RadiusCalls` say what a call returns.
* **C139 example programs with random points.** `Model/ExampleSearch.lean` takes the points as an argument. `Props/ExampleSearch.lean`: C70 for the circle, C85 for the torus, C46 for the custom power metric, C89 for the counter. The error factor is bounded by Bernoulli's inequality and the number of nodes (C20). `Props/ExampleSpace.lean` treats `search_r3`: three loops of searches into the same variables. What one run leaves behind whatever was in the variables before is what the loop leaves behind; C46, C92 and C08 describe one run. The comment of the program that an approximate neighbor is not further away than 1.2 times the real one is shown up to rounding only (squared distances: 5/3 instead of 36/25).
* **C140 approximate searches, rounded.** `Props/PyApprox.lean`: the visitors with a ratio are the exact visitors on scaled distances, so the proofs of C44 carry over; the error factors are those of C92, carried over to every form of the Python call as in C138.
* **C141 canonical files.** `Props/Canonical.lean`: the readers are inverted one after the other, from the encodings of the fundamental types over struct members and padding to nodes, tree data and the Python header; the padding that reproduces the file is taken from the file itself.
* **C142 true arcs.** `Props/CircleError.lean`: two roundings on the way from angles to a distance give the absolute error; the searches are exact for computed distances by C70.
* **C143 narrow and unsigned scalars.** `Model/Narrow.lean` makes the promotion to `int` explicit: the metrics, the choice of the first child and the offsets work on integers that become scalars where the code stores them. `Props/Narrow.lean`: the guard of C69 for an arbitrary test (`Created.guardSide`), exact sums up to the largest value; evaluation for the two failures.
* **C144 approximate searches with integers.** `Props/IntApprox.lean`: `1 / e` is zero, so that the visitors see the distance zero everywhere; a traversal that stops early has seen enough points (`searchNearest_full`), which gives the number of neighbours.
* **C145 order of the points.** `Proof/PointOrder.lean`: two rearrangements of the same keys that are split at the same place have the same keys on each side (`keys_of_split`); induction over `createNode` with the leaves compared as multisets of points, and over `searchNearest` with the lists of visited points related. `Props/PointOrder.lean`: the visitors of the library have a bound that does not depend on the order.
* **C146 benchmarks.** `Model/Benchmark.lean` has the loops of bm_pico_kd_tree.cpp and bm_pico_cover_tree.cpp (the vector of results is reused, the sum wraps), `Props/Benchmark.lean` puts C08, C04, C27, C48 and C74 together.
* **C147 reads of the builder.** `Model/BuildReads.lean` is the builder of `Model/Builder.lean` over checked pointers (`Reader`, C121), and what `space_wrapper::operator[]` makes of a reference, a view and a value. `Props/BuildReads.lean` proves it equal to the builder where all reads succeed (induction on the recursion), and that success needs all reads.
* **C148 tests of the cover tree.** FALSE for two kinds of runs. `Model/CoverTest.lean` has the two functions of cover_tree_test.cpp, `Props/CoverTest.lean` joins C48, C50, C41 and C99.
* **C149 errors of approximate searches.** No new model. `Props/ApproxTight.lean` runs the builder on two points (with an arbitrary `std::partition`) and the search with any visitor on the tree (`axis_search`). For a line: without empty leaves the sides of a node box go through points (`created_attained`), so that the child entered first has a nearest point of the node, and the other child changes nothing (induction on the construction, `approx_line`). `Props/ApproxCircle.lean` does the same for the circle: from inside of a segment every point outside of it is at least as far as one of its end points (`ends_le_outside`). For the second neighbor and for radius searches a tree of three points on a line gives the negation (`c149_line_others_false`).
* **C150 plots.** `Model/Plot.lean` has the script without matplotlib: patterns as the list of their matches in the order in which `re` tries them (greedy first), the dictionary of the lines, and exceptions as `none`. The names that the benchmark library gives are a separate definition (`Measured.name`). The matches are characterised as ways to cut the string (`mem_bind`, `mem_star`, ...), and a name can be cut in one way only, since the only slash that is not followed by a digit is the one before the method (`name_slash`). The lines: induction over the two loops (`c150_shows`).
* **C151 dynamic_space.** `Model/DynamicSpace.lean` has the types of spaces with their conversion operators and the parameters of the traits (`Ty`), and the objects: a space or a reference, and the dimension that the constructor of `dynamic_space` stores. `c151_types` decides which types compile; the others are about `Wrap.readAll`, all the reads of `compute_bounding_box`, against `PointsCut`, which is stated on the coordinates in memory. Changes: induction over the list (`changes_keep`). Whose view a change reaches is `c151_shared`.
* **C152 tests of the adaptors.** `Model/AdaptorTest.lean` has `check_space_adaptor` with its loop over an abstract comparison, and the four tests on the models of Eigen and OpenCV matrices, views and vectors. `c152_check` says in terms of dimension, size and coordinates when the check passes; the tests then are statements about addresses in the memory of the matrix. The comparison only has to accept equal numbers, which `c152_refl` shows for floats and doubles.

Status and theorem names: MANIFEST.json. The theorems of a property Cnn are called `cnn_...`.

## 4. Disagreements between the code and the properties

Each was found by reading and has a machine-checked witness. "any" in the third column: the theorem holds for a
whole class of inputs, not for a single one.

| Property | What the code does | Witness theorem |
| --- | --- | --- |
| C03 | `search_knn` into a range of more than n entries leaves the tail as it was, and the last entry gets distance `max()` | `c03_false` |
| C12, C13 | `metric_lpinf` / `metric_lninf` are pruned with the sum of the offsets, the nearest neighbor is missed in two dimensions; in d dimensions the one found may be nearly d times as far away (`metric_lpinf`), and a search within nearly d times the distance of the nearest one may find nothing, or at any distance while there is one at distance zero (`metric_lninf`) | `c12_false`, `c12_tight`, `c13_false`, `c13_unbounded` |
| C17 | `leaf_ranges` follows the null children of an empty leaf (midpoint rule) | `c17_false`; exact conditions: `c17_characterisation` |
| C18, C19, C21, C22 | stop values are narrowed from `size_t` to the index type: 2^32 becomes 0, `SIZE_MAX` becomes -1; recursion without end or wrong shape | `c18_false` (any points), `c19_false`, `c21_false` |
| C23 | midpoint rule with `max_leaf_size`: more than m coinciding points recurse forever; with floats also different points that are next to each other, with integers any points (`scalar_type(0.5)` is zero) | `c23_false` (any such points), `c23_stuck_false`, `c23_float_false`, `c23_int_false` |
| C25 | start bounds that do not contain the points give false box results; start bounds outside of `[0, 1]` give a wrong nearest neighbor on the circle | `c25_box_false`, `c25_so2_false` |
| C27, C34 | k = 0 writes through `std::prev` of an empty range | `c27_false`, `c34_zero_false` (any tree) |
| C31, C32 | a moved-from allocator keeps its chunk and hands out objects of its successor; move assignment and self assignment leak | `c31_false`, `c32_false`, `c32_self_false`, `c32_alias_false` (any chunk size) |
| C34 | k larger than the number of points: remaining cells hold index 0, distance 0 | `c34_false` |
| C35 | F ordered queries, outputs of another shape, strided outputs, reversed outputs | `c35_order_false`, `c35_shape_false`, `c35_strided_false`, `c35_reversed_false` |
| C38 | an array that is both C and F ordered is read as rows; `cv::Mat` with gaps between rows is read as if the gap belonged to the points | `c38_false`, `c38_mat_false` |
| C39 | queries of larger dimension are accepted for run time dimensions, the metric reads behind the points | `c39_false` (any arrays) |
| C44 | distances equal to `max()` are not accepted, the index in the output is the old one | `c44_false` |
| C46 | with float arithmetic in the plane the nearest neighbor can be missed (rounding of the incremental distance) | `c46_false` |
| C47 | a budget of zero leaves, or an empty forest, leaves the index of the caller untouched | `c47_zero_false` (any forest) |
| C48 | `cover_tree` accepts `metric_l2_squared`, which has no triangle inequality; wrong nearest neighbor | `c48_squared_false` |
| C50 | coinciding first two points and a different third one: level minus infinity, the loop of `insert` never ends | `c50_false` (any such points); exact conditions: `c50_iff` |
| C54 | the dimension stored in a file is ignored | `c54_false` |
| C57 | one dimensional contiguous and zero dimensional arrays: read outside of the shape | `c57_false` (any such array) |
| C58 | `load_kd_tree` has no `keep_alive` for the points | `c58_false` |
| C59 | iteration has no `keep_alive` for the views; reuse of a DArray as output moves or shrinks the memory below views and iterators | `c59_iter_false`, `c59_reuse_false`, `c59_shrink_false` |
| C61 | `kd_forest::search_nearest` presents points once for each tree; a k nearest neighbor visitor lists the same point several times | `c61_false` |
| C63 | `kd_forest` accepts `metric_l1`, whose distances the reflection does not keep | `c63_false` |
| C66 | with a base below two (the comments recommend 1.3), raising the root with a removed leaf (`node_to_parent(remove_leaf(tree), tree)`) gives a node whose level does not cover all points below it; searches stay right because they use `max_distance` | `c66_false` (base 1.3, points 0, 1, -1, 1.1) |
| C67 | the skip test `metric < 2 * child_distance` of `rebalance` assumes covering; with a base below two a point may sit below a child that is not the nearest | `c67_false` (base 1.3, six points on a line) |
| C72 | the sliding midpoint rule takes coinciding points apart one at a time: recursion as deep as there are copies, quadratic time (documented: O(n log n)) | `c72_duplicates` (any points), `c72_false` (any constant) |
| C74 | `write_bin` of an empty vector leaves the old file: the old elements come back, or reading throws | `c74_stale`, `c74_false` |
| C75 | `read_mnist_images` compares only width * height: 4 x 196 is accepted; the product may overflow `int`; files that are too short give black images | `c75_false`, `c75_overflow`, `c75_short` |
| C76 | `read_xvecs` ignores the dimension of the vectors in the file | `c76_accepts_everything`, `c76_false` |
| C78 | `read_next` repeats the last number on lines with fewer than three, and makes a point of a blank line | `c78_two`, `c78_blank`, `c78_false` |
| C80 | `kd_tree::load` does not compare the number of points of the space with the number of stored indices | `c80_outside`, `c80_false` |
| C81 | `box::contains` is true for NaN, `metric_lpinf` ignores it, `std::nth_element` with NaN is outside of its contract | `c81_false` |
| C82 | a box query with NaN bounds returns points, depending on `max_leaf_size` | `c82_false` |
| C83 | `splitter_midpoint_max_side` with a side that overflows to infinity puts all points left of infinity, forever | `c83_false`, `c83_false_case` |
| C83 | `splitter_sliding_midpoint_max_side` and `max_side` on points at infinity: `inf - inf` is NaN, no axis is selected | `c83_inf_false` |
| C84 | `left_max + right_min - v - v` overflows for coordinates above half of the largest number and selects the wrong child, whose sibling gets an offset it does not have | `c84_false` |
| C87 | `eigen_point_traits::data` ignores `innerStride()`: maps with an inner stride and columns of row major matrices are read from the wrong places | `c87_space_false`, `c87_point_false`, `c87_block_false` |
| C93 | `std::iota(indices.begin(), indices.end(), 0)` counts in `int`: undefined behaviour from 2^31 points on, also with a 64 bit index type. A signed index type of w < 32 bits numbers 2^(w-1) points, but the end of the last leaf does not fit | `c93_false`, `c93_narrow`, `c93_wrap` |
| C94 | The lower bound `d - max_distance` of a cover tree node is rounded: with `float` points at -0.9, -2^28, 2^25 and 1 + 2^-23 the nearest neighbor of 1 - 2^-24 is missed, and the answer is ten million times as far. | `c94_false` |
| C95 | The error ratio of the approximate searches is not checked: a negative ratio returns far points with negative distances, zero and NaN return nothing, infinity makes every distance zero. | `c95_false`, `c95_nothing`, `c95_infinite`, `c95_infinite_false` |
| C96 | `kd_forest` rotates about the origin; with `float` and points 2^24 away from the origin a query equal to a stored point returns another one, a quarter away, with distance zero | `c96_false` |
| C98 | the kd_forest example compares indices: a different nearest point counts as a miss; a stale file of answers that is longer than the test set makes it read behind its end | `c98_false`, `c98_stale` |
| C99 | the test helpers accept duplicates and wrong indices, `test_radius` rejects a right search if a point is at the distance `radius`, `search_knn` (the reference) is undefined for `k = 0` | `c99_box_false`, `c99_knn_false`, `c99_radius_false`, `c99_reference_false` |
| C101 | a larger ratio can make the approximate nearest neighbor search look at more and at other points (and even find a better answer) | `c101_false` |
| C103 | base two, eight points of the plane: `rebalance` inserts a node far from a child that has lost its descendants, and `remove_leaf` is called for a leaf | `c103_false` |
| C103 | base two: a child on the level of its parent and outside of its covering distance, a point below a farther sibling; descendants outside of the covering distance; siblings too close | `c103_levels_false`, `c103_covers_false`, `c103_apart_false` |
| C105 | points along an axis: the box search reads all `n` points and reports none; the bound of the comment holds for trees that split the axes in turn | `c105_all_false`, `c105_false` |
| C105 | topological metrics: the tests `intersects_left` and `intersects_right` are true for every query with min <= max, also on axes that are lines, so that every search reads all points it does not report | `c105_topological_false` |
| C107 | the dot of the pattern `^scan\d{3}.3d$` is not escaped, so `scan000_3d` is taken for a scan; `read_pose` does not check the stream: short poses are undefined behaviour, a word in sixth place is accepted | `c107_names_false`, `c107_dir_false`, `c107_pose_short`, `c107_pose_word` |
| C108 | ten digits do not tell doubles apart; files that exist are kept whatever the scans are; an empty vector leaves the old file | `c108_double_false`, `c108_stale`, `c108_empty` |
| C110 | KdTreeTest.LeafRanges expects four ranges; if a side of the first split holds one point, there are three. | `c110_leaf_ranges_false` |
| C111 | `metric_l2_squared`, points 3 and 1 times `2^-80`: all squares underflow to zero and the farther point is returned as nearest neighbor. | `c111_false` |
| C111 | sliding midpoint rule, coordinates of the size of the smallest number: half of it is rounded to zero, and the doubled points get other leaves. | `c111_tree_false` |
| C112 | The last four bytes of a file do not reach the disk: `save` and `load` return normally, and the last leaf of the loaded tree ends wherever the memory says. Points are missing from the answers. | `c112_false`, `c112_answer_false` |
* **C114** Box search on a circle does not treat 0 and 1 as the same angle: the arc from 9/10 to 1 does not contain the point 0, though the distance of that point to the angle 1 is 0 (`c114_arc_false`, internal/segment.hpp compares the coordinates only).
* **C115** A file does not say for which kind of metric it was written; the file of a topological tree is read as that of a Euclidean one (`c115_false`).
* **C116** kd_tree_builder.hpp:57-58 and kd_tree_search.cpp:60-63 promise O(1/e^d log n) for approximate queries with the sliding midpoint rule. The height of that tree is not logarithmic: with points at 0, 1, 3, 7, ... every query near 0 makes `n` calls (`c116_sliding_false`). Points that equal the query are all looked at (`c116_false`): the far child is searched if `max() >= distance`, also when both are 0. In the plane distinct points and a balanced tree do not help (`c116_plane_false`): the distance of the root is taken to be 0 and grows along split axes only, so that with `n` points on a horizontal line a query above them opens every leaf, exact or approximate with any ratio.
* **C117** `search_radius(pts, radius, 2)` does not search approximately with ratio 2: `py::float_` takes only a Python `float`, so that the overload `(pts, radius, sort)` is reached in the second pass of pybind11, 2 becomes `sort=True` and the search is exact (`c117_ratio_false`). The same call with a keyword, or `search_knn(pts, k, 2)`, is an error (`c117_errors`). `.noconvert()` for `sort` would make it an error too.
* **C118** `ensure_size` compares `nns.size()` with `query.size() * k`, which wraps around: `tree.search_knn(two_points, 2**63)` computes 2 * 2^63 = 0, does not resize the empty output and hands out ranges of 2^63 elements behind its end (`c118_example`).
* **C119** Through Python, too, `Metric.LPInf` gives a wrong nearest neighbor in the plane (`c119_lpinf_false`; see C12), and `search_knn` with k above npts returns rows that end with entries that are no neighbors (`c119_more_false`): the surplus entries keep what the output held before, the last one has the largest distance of the scalar type.
* **C120** A file does not say with which scalar type it was written. `load_kd_tree(float32_array, file_of_a_float64_tree)` never raises (`c120_never_refused_false`); with the single point 1.0000000000000002 it gives a tree whose leaf covers indices 0 to 20967424 of an index list of length 1 (`c120_false`), which the first search reads.
* **C121** Only `search_nearest` compares dimensions, and only those known at compile time (kd_tree.hpp:113-116). `search_box` and `bounds_t` accept points of any dimension: shorter ones are read behind their end (`c121_bounds_false`, `c121_box_false`), of longer ones the surplus is ignored. With a run time dimension a query that is too long is read against memory behind each point (`c121_long_false`; in one array of scalars it is compared with the next point, `c121_dynamic_false`), one that is too short is undefined at the first split along a missing axis (`c121_short_false`) or answered in the projection (`c121_leaf_false`).
* **C122** `metric_so2` compiles with points of any dimension, `metric_se2_squared` too. In the plane `metric_so2` returns a neighbor at 3/20 where there is one at 1/20 (`c122_so2_false`), in dimension four the same happens with `metric_se2_squared` (`c122_se2_false`), below three it reads behind every point (`c122_se2_short_false`).
* **C123** Nothing in the library or in its documentation says that the points must not change as long as the tree is used. `c123_false` is what happens: a point at distance 0 is not found, and a box search reports a point outside of the box.
* **C124** `sliding_midpoint_max_side_t` (kd_tree_builder.hpp:229-274) does not notice that the computed midpoint is the lower side of the cell. All points are then at or above it, one point is put to the left, and the cell to the right is the same as before. With `int` coordinates this happens for every cell with sides of length 1 (`c124_int_false`: the tree over the 2^d corners of the unit cube has 2^(d-1) - 1 levels or more), with `float` coordinates for cells between two neighboring numbers (`c124_float_false`). The recursion is then as deep as the number of points and the construction takes quadratic time, without any duplicates.
* **C125** the constructors of `map.hpp` trust their arguments: `map(begin, end)` dereferences `begin` also for an empty range (49-52), `map_storage` with a fixed extent drops the size (14), `map(data)` and `space_map(data, size)` are offered without a fixed extent as well and then use 2^64 - 1 (43-44, 146-147; a `static_assert` could exclude them). `opencv_mat_map` does not compare the type of the matrix with `Scalar_`, and `step1()` counts in the former (opencv_traits.hpp:111-116).
* **C127** nothing in `box.hpp` violates its callers today (the tree fits points and boxes of other memory), but the class allows: `fit` of a point that overlaps an end from below (86-95), `box_map` with overlapping ends (268-272) or, without a dimension known at compile time, without a size (268-269: 2^64 - 1 coordinates), `box<Scalar_, dynamic_extent>()`, which asks for 2^64 - 2 scalars and throws (205, 182), `box(size)` with `size * 2` wrapping around (182), and use of a moved-from box, whose `size` is not reset (180-193). The wrap-around is reachable from a damaged file: `kd_tree_data::load` passes the stored number (kd_tree_data.hpp:44-48).
* **C128** `list_pool_resource::operator=(list_pool_resource&&)` (memory.hpp:53-57) does not release its own chunks, so `tree1 = std::move(tree2)` leaks all nodes of `tree1`, and `tree = std::move(tree)` leaks all its nodes and leaves no indices. A moved-from tree keeps `root_node` (kd_tree_data.hpp:73): searching it reads indices that are not there, and after the new tree is destroyed also freed nodes.
* **C129** `insert_leaf_range` (kd_tree_data.hpp:76-87) treats an empty leaf as a branch and dereferences its null children (see C17). All searches of a moved-from tree follow `root_node`, which still points to the nodes of the new tree, and read indices that are not there.
* **C130** `cover_tree(cover_tree&&) = default` (cover_tree.hpp:74) copies `root_node`: the source keeps answering through the nodes of the new tree and dangles once that is destroyed (`c130_source_false`).
* **C132** `darray` (darray.hpp:194, 217-227, 271-279): only `data()` checks for an object without contents; `size()`, `empty()`, `dtype()`, `copy()`, `operator[]` and `end()` dereference the null pointer of a default constructed or moved-from object (`c132_null_false`; not reachable from Python).
* **C133** `kd_forest::search_nearest` (kd_forest.hpp:98-108): a query with fewer scalars than the points have is read beyond its end (`c133_short_false`).
* **C135** `metric_lpinf`: the distance of the nearest neighbor found jumps when the query moves (`c135_lpinf`), a consequence of C12.
* **C143, found:** a tree with `unsigned int` coordinates compiles (with `metric_l2_squared`) and misses nearest neighbours (`c143_unsigned_false`): the difference in kd_tree_search.hpp:76 cannot be negative. A tree of bytes with `metric_l2_squared` is right only while all distances are below 16 (`c143_wraps_false`).
* **C144, found:** the approximate searches are useless for integer scalars, for which they compile: `e_inv_` is zero for every ratio above one (`c144_radius_empty`, `c144_ratio_false`); nothing in kd_tree.hpp excludes integers.
* **C145, found:** points that share a coordinate go to either side of a median split, as the standard library likes, so that an approximate answer depends on the order in which the points are stored (`c145_ties_false`). This is within the promise of the search.
* **C146, found:** the benchmark of neighbors has no guard against an empty `scans0.bin` (`c146_knn_empty`: undefined behaviour, from C27); with coordinates above 2^24 the boxes of the benchmark contain points farther away than half their width (`c146_box_beyond`).
* **C147, found:** nothing stops a custom `space_traits::point_at` from returning points with scalars of their own by value (a computed point, say); it compiles, and `space_wrapper::operator[]` then returns a pointer into a destroyed temporary (`c147_value_false`).
* **C148, found:** CoverTreeTest.QueryRadiusSubset2d fails if a random point is exactly 2.5 away from the query (`test_radius` counts with `<=`, the search with `<`), and all three tests hang if the first two points inserted coincide (`c148_hang_false`).
* **C149** is as stated; worth knowing: with the midpoint rule the box of an empty leaf counts for the order in which the children are visited, and on a line or a circle this alone makes approximate searches inexact (`c149_midpoint_false`, `c149_circle_midpoint_false`).
* **C150** is as stated; worth knowing: the benchmarks of the box search are in no plot (`c150_box`), method names with underscores may share a line with another method (`c150_label_false`), and one benchmark with another name, such as `BmA/KnnFast/1`, stops the script before anything is shown (`c150_name_false`).
* **C151** is as stated; worth knowing: `dynamic_space` asks for the dimension once, in its constructor (dynamic_space.hpp:16-18). A matrix that is resized afterwards, or through the conversion to `Space_&`, is read with the old dimension, which is undefined if the new one is smaller (`c151_stale_false`). The example code only uses it with vectors of points, where that cannot happen (`c151_follows`).
* **C152** is as stated; worth knowing: `SpaceMapTraitsTest` takes the expected dimension, size and point from the view under test (`c152_self_false`), and all the tests look at one point only (`c152_blind_false`). In `Eigen3TraitsTest` the matrix `<float, 4, Dynamic, RowMajor>` stands under "Spatial dimension known", but the dimension of a row-major matrix is its number of columns, which is dynamic there: the case of a known dimension is only tested column-major.

What is proved instead is in the theorems with suffix `_partial`, with the missing part in their comments and in
the notes of MANIFEST.json.

## 5. Tests of the theorems

`seeded/LOG.jsonl`: edits of the model that imitate realistic bugs, made in a scratch copy, with the theorems that
stop to prove. Edits that no theorem noticed led to stronger theorems or new properties, or are marked as changes
that break no claim.
