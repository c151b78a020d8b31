{"id": "C01", "title": "Nearest neighbor is exact", "statement": "For metric_l1 and metric_l2_squared, kd_tree::search_nn returns a neighbor whose index is a valid point index, whose distance is the metric distance from the query to that point, and no point of the set is closer.", "quantifier": "all dimensions d >= 1, all non-empty finite point sets (duplicates allowed), all queries, all split rules, stop values and start bounds for which the build finishes, every implementation of std::partition/std::nth_element allowed by the standard", "why_tests_cant": "The pruning condition depends on the whole tree, the query and the order of visits; a test samples a handful of random sets and queries.", "anchors": ["src/pico_tree/pico_tree/kd_tree.hpp: kd_tree::search_nn", "src/pico_tree/pico_tree/internal/kd_tree_search.hpp: search_nearest_euclidean", "src/pico_tree/pico_tree/internal/search_visitor.hpp: search_nn"]}
{"id": "C02", "title": "k nearest neighbors into a vector are exact", "statement": "kd_tree::search_knn(x, k, vector) with k >= 1 leaves exactly min(k, n) entries, in non-decreasing distance order, with pairwise different indices, each with the true metric distance; the distances are the min(k, n) smallest of all n distances (with multiplicity).", "quantifier": "all d, n >= 1, k >= 1, point sets with ties and duplicates, queries, build options and prior contents of the vector", "why_tests_cant": "Ties and the interaction of the bounded insertion buffer with pruning make the input space unbounded; tests compare only a few sorted distance lists.", "anchors": ["src/pico_tree/pico_tree/kd_tree.hpp: kd_tree::search_knn", "src/pico_tree/pico_tree/internal/search_visitor.hpp: search_knn, insert_sorted"]}
{"id": "C03", "title": "k nearest neighbors into an iterator range", "statement": "kd_tree::search_knn(x, begin, end) with a range of length k, 1 <= k: the first min(k, n) entries are the exact k nearest neighbors (as in C02). When k > n, every entry of the range is still meaningful (documented as the k nearest neighbors of the range).", "quantifier": "all d, n, k >= 1, prior contents of the range, queries and build options", "why_tests_cant": "What happens to entries past the n-th depends on the previous contents of caller memory, which no finite set of tests covers.", "anchors": ["src/pico_tree/pico_tree/kd_tree.hpp: kd_tree::search_knn(P_ const&, It, It)", "src/pico_tree/pico_tree/internal/search_visitor.hpp: search_knn::search_knn"]}
{"id": "C04", "title": "Radius search returns exactly the open ball", "statement": "kd_tree::search_radius(x, r, out) returns, once each and with its true distance, exactly every point whose metric distance to x is strictly smaller than r; with sort = true the same neighbors come back in non-decreasing distance order.", "quantifier": "all d, n, point sets, queries, radii (also zero and negative), build options, prior contents of out, every standard-conforming std::sort", "why_tests_cant": "Requires both no false negatives (pruning) and no duplicates over all trees; border cases dst = r are measure zero for random tests.", "anchors": ["src/pico_tree/pico_tree/kd_tree.hpp: kd_tree::search_radius", "src/pico_tree/pico_tree/internal/search_visitor.hpp: search_radius"]}
{"id": "C05", "title": "Approximate nearest neighbor stays within the promised ratio", "statement": "kd_tree::search_nn(x, e, nn) with e >= 1 returns an actual point at distance at most e times the true nearest distance, and nn.distance * e is the true distance of the returned point. With 0 < e <= 1 the result is an exact nearest neighbor.", "quantifier": "all d, n >= 1, point sets, queries, ratios e > 0, build options", "why_tests_cant": "The bound is over every possible pruning decision; tests check one or two ratios on random data.", "anchors": ["src/pico_tree/pico_tree/kd_tree.hpp: kd_tree::search_nn(P_ const&, scalar_type, neighbor_type&)", "src/pico_tree/pico_tree/internal/search_visitor.hpp: search_approximate_nn"]}
{"id": "C06", "title": "Approximate k nearest neighbors stay within the promised ratio position by position", "statement": "kd_tree::search_knn(x, k, e, out) with e >= 1 returns min(k, n) distinct actual points, sorted, whose i-th true distance is at most e times the i-th smallest true distance; each stored distance times e is the true distance of that point.", "quantifier": "all d, n, k >= 1, e >= 1, point sets, queries, build options, prior contents", "why_tests_cant": "Position-wise guarantee quantifies over all subsets of skipped points.", "anchors": ["src/pico_tree/pico_tree/kd_tree.hpp: kd_tree::search_knn(P_ const&, size_type, scalar_type, vector&)", "src/pico_tree/pico_tree/internal/search_visitor.hpp: search_approximate_knn"]}
{"id": "C07", "title": "Approximate radius search is sound and complete up to the ratio", "statement": "kd_tree::search_radius(x, r, e, out) with e >= 1 returns only points at distance < r, each at most once with stored distance times e equal to the true distance, and includes every point at distance < r / e.", "quantifier": "all d, n, r, e >= 1, point sets, queries, build options, prior contents", "why_tests_cant": "Soundness and completeness over all trees cannot be enumerated.", "anchors": ["src/pico_tree/pico_tree/kd_tree.hpp: kd_tree::search_radius(P_ const&, scalar_type, scalar_type, ...)", "src/pico_tree/pico_tree/internal/search_visitor.hpp: search_approximate_radius"]}
{"id": "C08", "title": "Box search is exact for Euclidean metrics", "statement": "kd_tree::search_box(min, max, idxs) returns, once each, exactly the indices of the points p with min[i] <= p[i] <= max[i] for every i (borders included; nothing for an inverted box), whenever the start bounds used to build the tree contain all points (always so for bounds_from_space).", "quantifier": "all linearly ordered scalars (no arithmetic assumed: holds for NaN-free floats and integers), all d, n, query boxes (also inverted and degenerate), build options, prior contents of idxs", "why_tests_cant": "The bulk-report shortcut depends on a running box; missing or extra points appear only for special alignments of boxes and cells.", "anchors": ["src/pico_tree/pico_tree/kd_tree.hpp: kd_tree::search_box", "src/pico_tree/pico_tree/internal/kd_tree_search.hpp: search_box", "src/pico_tree/pico_tree/internal/box.hpp: box_base::contains"]}
{"id": "C09", "title": "Box search is exact for topological metrics, including wrap-around boxes", "statement": "For metric_so2, metric_se2_squared and user metrics on products of lines and circles, search_box returns once each exactly the points whose coordinate lies, on every line axis, in [min, max] and, on every circle axis, in [min, max] if min <= max and outside the open interval (max, min) otherwise.", "quantifier": "all linearly ordered scalars, all d, n, assignments of line/circle to axes, query boxes (also wrap-around ones), build options with containing start bounds", "why_tests_cant": "Wrap-around combined with partially overlapping cells has many cases; the unit tests try two boxes on SO(2).", "anchors": ["src/pico_tree/pico_tree/internal/kd_tree_search.hpp: search_box", "src/pico_tree/pico_tree/internal/box.hpp: metric_box_map", "src/pico_tree/pico_tree/internal/segment.hpp: segment_s1"]}
{"id": "C10", "title": "Searches on the circle SO(2) are exact", "statement": "For one-dimensional point sets with coordinates in [0, 1] and queries in [0, 1], search_nn, search_knn and search_radius with metric_so2 give the exact answers with respect to min(|x - y|, 1 - |x - y|).", "quantifier": "all n >= 1, point sets and queries inside [0, 1] (0 and 1 included), k, radii, build options", "why_tests_cant": "Pruning through the wrap-around is a global geometric argument.", "anchors": ["src/pico_tree/pico_tree/metric.hpp: metric_so2", "src/pico_tree/pico_tree/internal/kd_tree_search.hpp: search_nearest_topological", "src/pico_tree/pico_tree/internal/segment.hpp: segment_s1::distance"]}
{"id": "C11", "title": "Searches on SE(2) are exact", "statement": "For three-dimensional point sets whose third coordinate lies in [0, 1], search_nn, search_knn and search_radius with metric_se2_squared give the exact answers with respect to (dx)^2 + (dy)^2 + (circle distance of the third coordinates)^2.", "quantifier": "all n >= 1, point sets and queries with third coordinate in [0, 1], k, radii, build options", "why_tests_cant": "Mixed line/circle pruning has no finite test basis.", "anchors": ["src/pico_tree/pico_tree/metric.hpp: metric_se2_squared", "src/pico_tree/pico_tree/internal/kd_tree_search.hpp: search_nearest_topological"]}
{"id": "C12", "title": "Searches with the maximum metric are exact", "statement": "kd_tree searches with metric_lpinf (also Metric.LPInf in Python) return the exact nearest neighbors with respect to the maximum of the absolute coordinate differences.", "quantifier": "all d, n, point sets, queries, build options", "why_tests_cant": "Unit tests only evaluate the metric itself; whether pruning is compatible with it concerns all trees.", "anchors": ["src/pico_tree/pico_tree/metric.hpp: metric_lpinf", "src/pico_tree/pico_tree/internal/kd_tree_search.hpp: search_nearest_euclidean", "src/pyco_tree/pico_tree/_pyco_tree/def_kd_tree.cpp: Metric.LPInf"]}
{"id": "C13", "title": "Searches with the minimum metric are exact", "statement": "kd_tree searches with metric_lninf return the exact nearest neighbors with respect to the minimum of the absolute coordinate differences.", "quantifier": "all d, n, point sets, queries, build options", "why_tests_cant": "Unit tests only evaluate the metric itself.", "anchors": ["src/pico_tree/pico_tree/metric.hpp: metric_lninf", "src/pico_tree/pico_tree/internal/kd_tree_search.hpp: search_nearest_euclidean"]}
{"id": "C14", "title": "Custom visitor contract", "statement": "For any visitor whose max() never grows, kd_tree::search_nearest calls the visitor at most once per point, always with that point's true distance, and every point it did not report has a distance strictly greater than the visitor's final max(). If calls with distance >= max() leave the visitor unchanged, the result equals presenting every point in some order.", "quantifier": "all visitor state machines with non-increasing max(), all d, n, point sets, queries, build options, additive metrics", "why_tests_cant": "Quantifies over user-supplied code.", "anchors": ["src/pico_tree/pico_tree/kd_tree.hpp: kd_tree::search_nearest", "src/pico_tree/pico_tree/internal/kd_tree_search.hpp: search_nearest_euclidean", "examples/kd_tree/kd_tree_custom_search_visitor.cpp"]}
{"id": "C15", "title": "Custom metric contract", "statement": "Any user Euclidean metric that is a sum over coordinates of a function f(x - y) with f >= 0 and f monotone in the absolute value (e.g. the Lp^p metrics of the example) gives exact search_nn/search_knn/search_radius answers; likewise any user topological metric that is a sum of f applied to line or circle distances (e.g. the torus metric of the example) for coordinates in [0, 1] on circle axes.", "quantifier": "all such metrics, d, n, point sets, queries, build options", "why_tests_cant": "Quantifies over user-supplied metrics.", "anchors": ["examples/kd_tree/kd_tree_custom_metric.cpp: metric_lp_p, metric_t2_squared", "src/pico_tree/pico_tree/internal/kd_tree_search.hpp: search_nearest_euclidean, search_nearest_topological"]}
{"id": "C16", "title": "Every point is stored in exactly one leaf", "statement": "After construction the leaves of the tree, read from left to right, hold a permutation of 0..n-1: consecutive leaves own adjacent index ranges that together cover the whole index list, so no point is lost or duplicated.", "quantifier": "all d, n >= 1, point sets incl. duplicates, split rules, stop conditions, start bounds (also ones not containing the points) for which the build finishes, all conforming std::partition/std::nth_element", "why_tests_cant": "A lost point shows up only for particular tie patterns.", "anchors": ["src/pico_tree/pico_tree/internal/kd_tree_builder.hpp: build_kd_tree_impl::create_node, build_kd_tree", "src/pico_tree/pico_tree/internal/kd_tree_data.hpp: kd_tree_data"]}
{"id": "C17", "title": "leaf_ranges lists all non-empty leaves", "statement": "kd_tree::leaf_ranges returns without error one range per non-empty leaf in depth-first order; the ranges are non-empty and their concatenation is the whole index list (a permutation of 0..n-1).", "quantifier": "all trees produced by the builder with any split rule, stop condition and bounds", "why_tests_cant": "Empty leaves only appear for particular point distributions and the midpoint rule, which the leaf_ranges unit test does not use.", "anchors": ["src/pico_tree/pico_tree/kd_tree.hpp: kd_tree::leaf_ranges", "src/pico_tree/pico_tree/internal/kd_tree_data.hpp: insert_leaf_range"]}
{"id": "C18", "title": "max_leaf_size is respected", "statement": "A tree built with max_leaf_size_t(m), m >= 1, has no leaf with more than m points, and a set with at most m points becomes a single leaf.", "quantifier": "all m >= 1 representable as std::size_t, n, point sets, rules, bounds", "why_tests_cant": "Includes sizes around the range limit of the index type, which tests never use.", "anchors": ["src/pico_tree/pico_tree/internal/kd_tree_builder.hpp: max_leaf_size_t, build_kd_tree_impl::is_leaf, stop_value_"]}
{"id": "C19", "title": "max_leaf_depth is respected", "statement": "A tree built with max_leaf_depth_t(m) has no leaf deeper than m, and a leaf above depth m holds at most one point.", "quantifier": "all m representable as std::size_t, n, point sets, rules, bounds", "why_tests_cant": "Quantifies over all depths and point distributions.", "anchors": ["src/pico_tree/pico_tree/internal/kd_tree_builder.hpp: max_leaf_depth_t, build_kd_tree_impl::is_leaf"]}
{"id": "C20", "title": "Median and sliding midpoint never produce empty leaves", "statement": "With median_max_side or sliding_midpoint_max_side and n >= 1 no leaf is empty, and the tree has at most n leaves (at most 2n - 1 nodes).", "quantifier": "all n >= 1, point sets (also all points equal), start bounds (also ones not containing any point), stop values", "why_tests_cant": "The sliding branch is reached only for degenerate splits.", "anchors": ["src/pico_tree/pico_tree/internal/kd_tree_builder.hpp: splitter_median_max_side, splitter_sliding_midpoint_max_side"]}
{"id": "C21", "title": "The median rule gives balanced trees", "statement": "With median_max_side sibling subtrees differ by at most one point, and a tree over n points with max_leaf_size m has depth at most the least h with n <= m * 2^h.", "quantifier": "all n >= 1, m >= 1, point sets, bounds", "why_tests_cant": "Balance is claimed for every data distribution.", "anchors": ["src/pico_tree/pico_tree/internal/kd_tree_builder.hpp: median_max_side_t, splitter_median_max_side"]}
{"id": "C22", "title": "Construction terminates without undefined behaviour", "statement": "Building with the median or sliding midpoint rule terminates for every point set and every stop condition (max_leaf_size >= 1), and building with any rule and max_leaf_depth terminates.", "quantifier": "all n >= 1, point sets incl. duplicates, stop values representable in the index type, start bounds", "why_tests_cant": "Non-termination depends on duplicates and on degenerate boxes.", "anchors": ["src/pico_tree/pico_tree/internal/kd_tree_builder.hpp: build_kd_tree_impl::create_node"]}
{"id": "C23", "title": "Construction with the midpoint rule and max_leaf_size terminates", "statement": "Building with midpoint_max_side and max_leaf_size_t(m), m >= 1, terminates.", "quantifier": "all point sets and m >= 1", "why_tests_cant": "Duplicates beyond the leaf size are a corner case never tested for this rule.", "anchors": ["src/pico_tree/pico_tree/internal/kd_tree_builder.hpp: splitter_midpoint_max_side, create_node"]}
{"id": "C24", "title": "Answers do not depend on how the tree was built", "statement": "Two trees over the same points, built with different split rules, stop conditions, start bounds or standard library implementations, give the same nearest distance, the same k nearest distances, the same radius result sets and (with containing bounds) the same box result sets.", "quantifier": "all pairs of finished builds over the same points, all queries, additive metrics", "why_tests_cant": "Relational property over pairs of trees.", "anchors": ["src/pico_tree/pico_tree/kd_tree.hpp: kd_tree", "src/pico_tree/pico_tree/internal/kd_tree_builder.hpp: build_kd_tree"]}
{"id": "C25", "title": "Start bounds only influence performance", "statement": "Custom start bounds (bounds_t) do not change any query answer.", "quantifier": "all bounds, point sets, queries", "why_tests_cant": "Bounds not containing the points are a legal input that tests do not try.", "anchors": ["src/pico_tree/pico_tree/internal/kd_tree_builder.hpp: bounds_t, box_from_bounds", "src/pico_tree/pico_tree/kd_tree.hpp: kd_tree::search_box"]}
{"id": "C26", "title": "Answers do not depend on what the output held before", "statement": "The results of search_nn, search_knn (vector version), search_radius and search_box do not depend on the previous contents of the output argument.", "quantifier": "all prior contents of the output, point sets, queries", "why_tests_cant": "Quantifies over arbitrary caller memory.", "anchors": ["src/pico_tree/pico_tree/kd_tree.hpp: search_nn, search_knn, search_radius, search_box", "src/pico_tree/pico_tree/internal/search_visitor.hpp"]}
{"id": "C27", "title": "search_knn is well defined for every k", "statement": "search_knn(x, k, out) has defined behaviour for every k, in particular k = 0 returns an empty result.", "quantifier": "all k >= 0, trees, queries", "why_tests_cant": "Memory errors on the empty range may pass silently in tests.", "anchors": ["src/pico_tree/pico_tree/internal/search_visitor.hpp: search_knn::search_knn (std::prev(end_))", "src/pico_tree/pico_tree/kd_tree.hpp: kd_tree::search_knn"]}
{"id": "C28", "title": "Saving and loading returns the same tree", "statement": "kd_tree::load(space, stream) after kd_tree::save(tree, stream) yields a tree with the same index list, root box, node structure and therefore identical answers to every query; the result does not depend on the values of padding bytes.", "quantifier": "all trees (Euclidean and topological nodes, static and dynamic dimension), all fixed-width encodings of indices and scalars, all padding contents", "why_tests_cant": "Arbitrary tree shapes and sizes; padding contents are indeterminate.", "anchors": ["src/pico_tree/pico_tree/kd_tree.hpp: load, save", "src/pico_tree/pico_tree/internal/kd_tree_data.hpp: read_node, write_node, read, write", "src/pico_tree/pico_tree/internal/stream_wrapper.hpp: stream_wrapper"]}
{"id": "C29", "title": "A saved tree is self-delimiting in the stream", "statement": "Loading consumes exactly the bytes saving wrote, so trees (or other data) stored one after another in a stream can be read back in order; and no proper prefix of a saved tree loads as a complete tree without running out of data.", "quantifier": "all trees and all following stream contents, all truncation points", "why_tests_cant": "Quantifies over every tree and every truncation point.", "anchors": ["src/pico_tree/pico_tree/kd_tree.hpp: load(space, std::iostream&)", "src/pico_tree/pico_tree/internal/kd_tree_data.hpp: load, save"]}
{"id": "C30", "title": "The Python file header round-trips and foreign files are rejected", "statement": "load_kd_tree recovers the metric stored by save_kd_tree for every supported metric; a file with another signature, another version or an unknown metric string raises an error.", "quantifier": "all metrics, all byte strings as file contents", "why_tests_cant": "The set of foreign files is infinite.", "anchors": ["src/pyco_tree/pico_tree/_pyco_tree/kd_tree.hpp: pkd_header, load_kd_tree, save_kd_tree"]}
{"id": "C31", "title": "Node memory is never handed out twice and is freed exactly once", "statement": "The node allocator returns pairwise different, live objects, they stay valid until release/destruction, and every chunk allocated is freed exactly once when its owner is destroyed, for any sequence of allocations and move constructions.", "quantifier": "all allocation sequences, any number of allocator objects", "why_tests_cant": "Aliasing appears only past chunk boundaries and for particular move sequences.", "anchors": ["src/pico_tree/pico_tree/internal/memory.hpp: list_pool_resource, chunk_allocator"]}
{"id": "C32", "title": "Move assignment of a tree neither leaks nor shares node memory", "statement": "After tree1 = std::move(tree2) all memory of the old tree1 is released, and the moved-from allocator cannot hand out memory owned by tree1.", "quantifier": "all pairs of trees", "why_tests_cant": "Leaks are invisible to functional tests.", "anchors": ["src/pico_tree/pico_tree/internal/memory.hpp: list_pool_resource::operator=, chunk_allocator", "src/pico_tree/pico_tree/kd_tree.hpp: kd_tree::operator="]}
{"id": "C33", "title": "Python batch queries equal the single queries, whatever the thread schedule", "statement": "KdTree.search_knn/search_radius/search_box on a batch give for every row exactly the result of the single C++ query for that row, independent of the number of threads, the schedule and the interleaving.", "quantifier": "all batches, k <= npts, all interleavings of the loop iterations' writes", "why_tests_cant": "Schedules cannot be enumerated by tests.", "anchors": ["src/pyco_tree/pico_tree/_pyco_tree/kd_tree.hpp: kd_tree_impl::search_knn, search_radius, search_box"]}
{"id": "C34", "title": "Python k nearest neighbor output has a meaningful entry in every cell", "statement": "KdTree.search_knn(pts, k) returns in every cell of the output a neighbor of the tree.", "quantifier": "all k >= 1, also k > npts", "why_tests_cant": "Uninitialised memory often looks plausible in tests.", "anchors": ["src/pyco_tree/pico_tree/_pyco_tree/kd_tree.hpp: kd_tree_impl::search_knn, ensure_size"]}
{"id": "C35", "title": "Python k nearest neighbor output follows the documented layout", "statement": "The output of KdTree.search_knn has shape (npts, k) for C ordered input and (k, npts) for F ordered input with the same memory layout as the input, so entry [i, j] (resp. [j, i]) is the j-th neighbor of query i; an output array of a different shape is resized.", "quantifier": "all npts, k, layouts and prior shapes of the output array", "why_tests_cant": "Only a handful of shapes are tested, all C ordered.", "anchors": ["src/pyco_tree/pico_tree/_pyco_tree/kd_tree.hpp: ensure_size", "src/pyco_tree/pico_tree/_pyco_tree/def_kd_tree.cpp: search_knn doc"]}
{"id": "C36", "title": "DArray indexing and slicing follow Python semantics", "statement": "For a DArray a of length n, a[i] is element i for 0 <= i < n, element n + i for -n <= i < 0 and an IndexError otherwise; a[start:stop:step] copies exactly the elements Python's slice semantics name, also for negative steps, in 64-bit modular arithmetic.", "quantifier": "all lengths n < 2^63, all 64-bit i, all slices (start, step, count) computed by Python for that length", "why_tests_cant": "Wrap-around arithmetic over the 64-bit range.", "anchors": ["src/pyco_tree/pico_tree/_pyco_tree/def_darray.cpp: __getitem__", "src/pyco_tree/pico_tree/_pyco_tree/darray.hpp: darray_impl::copy"]}
{"id": "C37", "title": "Python box queries pair corners correctly and reject odd input", "statement": "KdTree.search_box(boxes) raises for an odd number of rows and otherwise returns one result per consecutive pair of rows (min, max), in order.", "quantifier": "all numbers of rows and all boxes", "why_tests_cant": "Quantifies over all batch sizes.", "anchors": ["src/pyco_tree/pico_tree/_pyco_tree/kd_tree.hpp: kd_tree_impl::search_box"]}
{"id": "C38", "title": "Array views address the intended coordinates", "statement": "For a contiguous two-dimensional array, point i coordinate j seen by the tree is a[i, j] for C ordered and a[j, i] for F ordered arrays, and space_map never reads outside the array; for cv::Mat every row is one point.", "quantifier": "all shapes, layouts, strides", "why_tests_cant": "Index arithmetic over all shapes and strides.", "anchors": ["src/pyco_tree/pico_tree/_pyco_tree/py_array_map.hpp: make_map", "src/pyco_tree/pico_tree/_pyco_tree/core.hpp: array_layout", "src/pico_tree/pico_tree/map.hpp: space_map", "src/pico_tree/pico_tree/opencv_traits.hpp: opencv_mat_map"]}
{"id": "C39", "title": "Python rejects queries of the wrong dimension", "statement": "Querying a KdTree with points whose spatial dimension differs from that of the tree raises an error instead of reading out of bounds.", "quantifier": "all tree dimensions and all query dimensions", "why_tests_cant": "The static 2D/3D cases are checked, the dynamic case behaves differently.", "anchors": ["src/pyco_tree/pico_tree/_pyco_tree/core.hpp: is_dim_compatible", "src/pyco_tree/pico_tree/_pyco_tree/py_array_map.hpp: make_map"]}
{"id": "C40", "title": "Query types agree with each other", "statement": "On one tree: the nearest distance equals the first of the k nearest distances; the k nearest distances are a prefix of the k+1 nearest distances; the number of radius results for radius r equals the number of points among the n nearest with distance < r; a larger radius or a larger box returns a superset.", "quantifier": "all trees, queries, k, radii, boxes, additive metrics", "why_tests_cant": "Relational properties between infinitely many query pairs.", "anchors": ["src/pico_tree/pico_tree/kd_tree.hpp: search_nn, search_knn, search_radius, search_box"]}
{"id": "C41", "title": "Distance functions obey the laws users rely on", "statement": "metric_l1, metric_lpinf and metric_so2 (coordinates in [0, 1], with 0 and 1 identified) are non-negative, symmetric, zero exactly on equal points and satisfy the triangle inequality; metric_l2_squared and metric_se2_squared are non-negative, symmetric and zero exactly on equal points; metric(x) of a scalar is the distance of points x apart.", "quantifier": "all dimensions and points", "why_tests_cant": "Universal algebraic laws.", "anchors": ["src/pico_tree/pico_tree/metric.hpp", "src/pico_tree/pico_tree/distance.hpp"]}
{"id": "C42", "title": "The midpoint rules split the longest side in half", "statement": "For midpoint_max_side started from a box with all sides equal, every cell of the tree has an aspect ratio of at most 2:1, and the first dimension is chosen among several longest sides.", "quantifier": "all depths, point sets, cubes", "why_tests_cant": "Claim about all nodes of all trees.", "anchors": ["src/pico_tree/pico_tree/internal/kd_tree_builder.hpp: midpoint_max_side_t, splitter_midpoint_max_side", "src/pico_tree/pico_tree/internal/box.hpp: max_side"]}
{"id": "C43", "title": "Leaf order follows the N-order curve for hyper cubes", "statement": "For a tree built with midpoint_max_side from a hyper cube containing the points, the left-to-right leaf order agrees with the Z/N-order (bit interleaving) of the point coordinates.", "quantifier": "all depths, dimensions, point sets inside the cube", "why_tests_cant": "Claim about all point sets and depths.", "anchors": ["src/pico_tree/pico_tree/kd_tree.hpp: leaf_ranges doc", "src/pico_tree/pico_tree/internal/kd_tree_builder.hpp: splitter_midpoint_max_side"]}
{"id": "C44", "title": "Results are genuine under any arithmetic", "statement": "Whatever rounding the scalar type applies (no algebraic law assumed), and for every metric, each index returned by search_nn/search_knn/search_radius is a valid, not repeated point index, its stored distance is the metric value computed for it, k nearest results are sorted, and radius results are below the radius.", "quantifier": "all linearly ordered scalar types with arbitrary +, -, *, all metrics including metric_lpinf and metric_lninf, all trees, queries", "why_tests_cant": "Floating point behaviour differs per platform and cannot be enumerated.", "anchors": ["src/pico_tree/pico_tree/internal/search_visitor.hpp", "src/pico_tree/pico_tree/internal/kd_tree_search.hpp"]}
{"id": "C45", "title": "One-dimensional searches are exact under floating point rounding", "statement": "For one-dimensional point sets and metric_l1 or metric_l2_squared, search_nn, search_knn and search_radius are exact with respect to the computed (rounded) distances for any monotone, faithful rounding of +, - and *.", "quantifier": "all monotone roundings, all n, point sets, queries, build options", "why_tests_cant": "Rounding errors depend on every bit of the input.", "anchors": ["src/pico_tree/pico_tree/internal/kd_tree_search.hpp: search_nearest_euclidean"]}
{"id": "C46", "title": "Searches are exact under floating point rounding in any dimension", "statement": "search_nn returns a point with the smallest computed distance for float/double coordinates in any dimension.", "quantifier": "all float point sets and queries, all dimensions", "why_tests_cant": "Last-bit effects in the incremental distance appear in vanishingly few inputs.", "anchors": ["src/pico_tree/pico_tree/internal/kd_tree_search.hpp: search_nearest_euclidean (incremental distance)"]}
{"id": "C47", "title": "kd_forest priority search is exact given enough leaves, and sound always", "statement": "kd_forest::search_nn with metric_l2_squared returns an actual point with its true distance to the query, never visits more than max_leaves_visited leaves per tree, and is exact when max_leaves_visited is at least the number of leaves.", "quantifier": "all d, n, unit normal vectors, forest sizes, point sets, queries, leaf budgets", "why_tests_cant": "Random rotations and queue order make the space infinite.", "anchors": ["examples/pico_understory/pico_understory/kd_forest.hpp: kd_forest", "examples/pico_understory/pico_understory/internal/kd_tree_priority_search.hpp", "examples/pico_understory/pico_understory/internal/rkd_tree_hh_data.hpp"]}
{"id": "C48", "title": "cover_tree searches are exact", "statement": "For a metric with symmetry and triangle inequality cover_tree::search_nn, search_knn and search_radius give the exact answers.", "quantifier": "all metrics, point sets, queries, trees produced by the builder", "why_tests_cant": "Depends on the random insertion order and rebalancing.", "anchors": ["examples/pico_understory/pico_understory/internal/cover_tree_search.hpp: search_nearest_metric", "examples/pico_understory/pico_understory/internal/cover_tree_builder.hpp"]}
{"id": "C49", "title": "cover_tree construction keeps every point exactly once", "statement": "Building a cover_tree places every point in exactly one node, for every insertion order, whenever the build finishes.", "quantifier": "all point sets, insertion orders, leveling bases", "why_tests_cant": "Random shuffling and mutual recursion of rebalancing.", "anchors": ["examples/pico_understory/pico_understory/internal/cover_tree_builder.hpp: insert, rebalance, extract, strip"]}
{"id": "C50", "title": "cover_tree construction terminates for duplicates", "statement": "Building a cover_tree terminates for every point set, also when the first two inserted points coincide.", "quantifier": "all point sets and insertion orders", "why_tests_cant": "The insertion order is random; the failure needs duplicates first.", "anchors": ["examples/pico_understory/pico_understory/internal/cover_tree_builder.hpp: insert_first_two, insert, remove_leaf"]}
{"id": "C51", "title": "Loading any file terminates and reads no further than it has to", "statement": "Loading a tree from an arbitrary byte sequence, valid or not, either gives a tree, fails, or reaches the end of the data after finitely many steps; a successful load depends only on the bytes it consumed.", "quantifier": "all byte sequences, static and dynamic dimension, all platforms", "why_tests_cant": "The set of byte sequences is infinite; a corrupt file may describe an arbitrarily deep tree.", "anchors": ["src/pico_tree/pico_tree/internal/kd_tree_data.hpp: read_node, read, load", "src/pico_tree/pico_tree/internal/stream_wrapper.hpp: read"]}
{"id": "C52", "title": "Segment distances are distances to the nearest point of the segment", "statement": "segment_r1::distance(x) and segment_s1::distance(x) equal the distance from x to the nearest point of the segment, for ordinary segments and for segments of the circle that run through 1 = 0; segment_s1::contains(x) decides membership.", "quantifier": "all segments and points of the line or the unit circle", "why_tests_cant": "The wrapped branch is never reached by tree searches, because node boxes are never wrapped; only a general statement covers it.", "anchors": ["src/pico_tree/pico_tree/internal/segment.hpp: segment_r1::distance, segment_s1::distance, segment_s1::contains"]}
{"id": "C53", "title": "Segment containment is set inclusion", "statement": "contains(segment) of segment_r1 and segment_s1 returns true exactly if every point of the argument is a point of the segment.", "quantifier": "all segments (ordinary or wrapped) and all ordinary argument segments", "why_tests_cant": "Requires all positions of four end points on the circle.", "anchors": ["src/pico_tree/pico_tree/internal/segment.hpp: segment_r1::contains, segment_s1::contains"]}
{"id": "C54", "title": "A file of another dimension is not accepted", "statement": "Loading a tree that was saved with a spatial dimension different from the one of the program raises an error.", "quantifier": "all trees, all pairs of dimensions", "why_tests_cant": "The failure produces a tree with arbitrary node ranges that may or may not crash.", "anchors": ["src/pico_tree/pico_tree/internal/kd_tree_data.hpp: load", "src/pico_tree/pico_tree/internal/box.hpp: box_storage"]}
{"id": "C55", "title": "The linked nodes in memory are the tree, with no sharing and no interference", "statement": "When a tree is built or loaded, the nodes that create_node/read_node place in the chunk allocator and link by left/right represent exactly the tree of the functional algorithm: each node is a distinct, allocated, initialised object, leaves are recognised by two null children, the union member that was written is the one that is read, and no node of any other tree changes.", "quantifier": "all point sets and build options, all streams, all behaviours of operator new that return unused addresses, all chunk sizes, all other trees in memory", "why_tests_cant": "Aliasing shows only for particular sizes around chunk boundaries and for particular addresses returned by the system allocator; tests see one allocator behaviour and silently tolerate overlapping objects that are not used again.", "anchors": ["src/pico_tree/pico_tree/internal/kd_tree_builder.hpp: build_kd_tree_impl::create_node", "src/pico_tree/pico_tree/internal/kd_tree_data.hpp: kd_tree_data::read_node", "src/pico_tree/pico_tree/internal/kd_tree_node.hpp: kd_tree_node_base::is_leaf", "src/pico_tree/pico_tree/internal/memory.hpp: chunk_allocator::allocate"]}
{"id": "C56", "title": "The buffer of a Python KdTree shows the points of the array", "statement": "request() describes a buffer with the shape and the elements of the array from which the tree was constructed: element [i, j] of the buffer is element [i, j] of the array for C and for F order.", "quantifier": "all arrays that the constructor accepts, all indices", "why_tests_cant": "Shape, order and strides only agree by accident for particular shapes (square arrays, one column).", "anchors": ["src/pyco_tree/pico_tree/_pyco_tree/kd_tree.hpp: kd_tree::request", "src/pyco_tree/pico_tree/_pyco_tree/py_array_map.hpp: py_array_map"]}
{"id": "C57", "title": "The Python constructor accepts two dimensional arrays only", "statement": "Constructing a KdTree from an array that does not have exactly two dimensions raises an exception.", "quantifier": "all arrays of any number of dimensions and any layout", "why_tests_cant": "A read of a missing shape entry is undefined behaviour that usually shows no symptom.", "anchors": ["src/pyco_tree/pico_tree/_pyco_tree/py_array_map.hpp: make_map, layout"]}
{"id": "C58", "title": "A Python KdTree never outlives its points", "statement": "In every Python program the memory of the points of a KdTree that can still be used has not been freed.", "quantifier": "all sequences of object creations, searches, deletions of variables", "why_tests_cant": "Use after free depends on garbage collection and reuse of memory by later allocations.", "anchors": ["src/pyco_tree/pico_tree/_pyco_tree/def_kd_tree.cpp: KdTree, load_kd_tree"]}
{"id": "C59", "title": "NumPy views of a DArray never outlive the memory they show", "statement": "In every Python program a NumPy array obtained from a DArray by indexing or iteration that can still be used shows memory that has not been freed.", "quantifier": "all sequences of searches, index and slice operations, iterations, reuse of a DArray as output, deletions of variables", "why_tests_cant": "Use after free depends on the order of deletions, on the capacities of vectors and on later allocations.", "anchors": ["src/pyco_tree/pico_tree/_pyco_tree/def_darray.cpp: __getitem__, __iter__", "src/pyco_tree/pico_tree/_pyco_tree/darray.hpp: darray_impl::operator[]", "src/pyco_tree/pico_tree/_pyco_tree/kd_tree.hpp: search_radius, search_box with output argument"]}
{"id": "C60", "title": "Python calls reject wrong element types and read-only outputs", "statement": "A search with queries or outputs of another element type than the one of the tree, and a search_knn with a read-only output array, raise an exception and write nothing.", "quantifier": "all arrays, trees and arguments", "why_tests_cant": "Needs every combination of element types, layouts and sizes; writing to read-only memory often goes unnoticed.", "anchors": ["src/pyco_tree/pico_tree/_pyco_tree/kd_tree.hpp: throw_if_not_scalar_dtype, throw_if_not_neighbor_dtype, throw_if_not_index_dtype, search_knn"]}
{"id": "C61", "title": "kd_forest::search_nearest shows a visitor every point at most once", "statement": "A visitor given to kd_forest::search_nearest is presented every point at most once, so that the visitor of search_knn ends up with k distinct nearest neighbors when the leaf budget suffices.", "quantifier": "all d, n, unit normal vectors, forest sizes, point sets, queries, visitors", "why_tests_cant": "The tests of the examples use search_nn only, for which repeated points are harmless.", "anchors": ["examples/pico_understory/pico_understory/kd_forest.hpp: kd_forest::search_nearest", "src/pico_tree/pico_tree/internal/search_visitor.hpp: search_knn"]}
{"id": "C62", "title": "The random reflection is an isometry and an involution", "statement": "random_normal yields a unit vector (unless every sample is zero), and rotate_point with a unit vector keeps the squared Euclidean distance of any two points and is its own inverse.", "quantifier": "all d, vectors, points", "why_tests_cant": "The vectors are random and the claim is an algebraic identity in all coordinates.", "anchors": ["examples/pico_understory/pico_understory/internal/rkd_tree_hh_data.hpp: rotate_point, random_normal", "src/pico_tree/pico_tree/internal/point.hpp: normalize"]}
{"id": "C63", "title": "kd_forest reports true distances for every Euclidean metric it accepts", "statement": "For every metric with the Euclidean space tag that kd_forest can be instantiated with (metric_l1 included), search_nn reports the distance between the query and the reported point.", "quantifier": "all d, n, unit normal vectors, forest sizes, metrics with euclidean_space_tag", "why_tests_cant": "The examples instantiate the default metric only.", "anchors": ["examples/pico_understory/pico_understory/kd_forest.hpp: kd_forest", "src/pico_tree/pico_tree/metric.hpp: metric_l1"]}
{"id": "C64", "title": "Approximate searches on SO(2) and SE(2) keep the promised ratio", "statement": "On the circle and on SE(2), the approximate nearest neighbor, k nearest neighbor and radius searches report true distances and stay within the ratio e (position by position for k neighbors; radius search finds everything within r/e and nothing outside r).", "quantifier": "all point sets with circle coordinates in [0,1], queries on the circle, e >= 1, radii, k, build options", "why_tests_cant": "The tests use one ratio on random points of the Euclidean plane; the pruning on the circle differs.", "anchors": ["src/pico_tree/pico_tree/internal/kd_tree_search.hpp: search_nearest_topological", "src/pico_tree/pico_tree/internal/search_visitor.hpp: search_nn_approx, search_knn_approx, search_radius_approx"]}
{"id": "C65", "title": "Cover tree: levels and separation", "statement": "In every tree that the cover tree builder finishes, each child sits exactly one level below its parent, and any two children of a node are further apart than the covering distance of their level.", "quantifier": "all point sets, insertion orders, bases, logarithm and partition implementations, symmetric distances", "why_tests_cant": "The tests check one data set and one base; the invariant has to survive root raising and rebalancing in any order.", "anchors": ["examples/pico_understory/pico_understory/internal/cover_tree_builder.hpp: insert, insert_covered, rebalance, node_to_parent"]}
{"id": "C66", "title": "Cover tree: covering", "statement": "In every tree that the builder finishes, every point below a node lies within the distance that the level of the node covers, so max_distance never exceeds it.", "quantifier": "all point sets, insertion orders, bases > 1, metrics", "why_tests_cant": "Violations need a base below two and a particular order of insertions.", "anchors": ["examples/pico_understory/pico_understory/internal/cover_tree_builder.hpp: insert, node_to_parent, update_max_distance", "examples/pico_understory/pico_understory/internal/cover_tree_base.hpp: base"]}
{"id": "C67", "title": "Cover tree: nearest ancestor", "statement": "In every tree that the builder finishes, each point lies below the child of a node that is nearest to the point among the children of that node.", "quantifier": "all point sets, insertion orders, bases > 1, metrics", "why_tests_cant": "Depends on the order of insertions and on the skip test of the rebalancing, which is only right if points are covered.", "anchors": ["examples/pico_understory/pico_understory/internal/cover_tree_builder.hpp: insert_covered, rebalance"]}
{"id": "C68", "title": "Floating point searches on a grid are exact", "statement": "If all coordinates are multiples of one power of two, of at most B units, and d(2B)^2 units are representable (d 2B for metric_l1), then with the median and sliding midpoint rules every search returns the mathematically exact result: no rounding ever happens in a distance or in the incremental lower bound, though split values themselves may be rounded.", "quantifier": "all point sets, dimensions, queries, precisions, grids, stop conditions, k, radii", "why_tests_cant": "C46 shows the search is wrong in general for rounded numbers; where it is safe cannot be told from samples.", "anchors": ["src/pico_tree/pico_tree/internal/kd_tree_search.hpp: search_nearest_euclidean", "src/pico_tree/pico_tree/metric.hpp: metric_l1, metric_l2_squared", "src/pico_tree/pico_tree/internal/kd_tree_builder.hpp"]}
{"id": "C69", "title": "Integer scalars: exact as long as nothing overflows", "statement": "With a signed integer scalar type, coordinates of at most B with 4B and d(2B)^2 (metric_l2_squared) or d 2B (metric_l1) representable, every search returns the mathematically exact result, whatever overflowing operations do elsewhere.", "quantifier": "all integer widths, overflow behaviours, point sets, dimensions, queries, leaf sizes, k, radii", "why_tests_cant": "Overflow depends on magnitudes that tests do not use; the intermediate left_max + right_min - v - v needs more room than the coordinates.", "anchors": ["src/pico_tree/pico_tree/internal/kd_tree_search.hpp: search_nearest_euclidean", "src/pico_tree/pico_tree/metric.hpp: metric_l1, metric_l2_squared", "src/pico_tree/pico_tree/internal/kd_tree_builder.hpp: splitter_sliding_midpoint_max_side"]}
{"id": "C70", "title": "Searches on the circle are exact under floating point rounding", "statement": "On SO(2) every search returns exactly what brute force over the computed (rounded) distances returns, for every rounding that is monotone, idempotent and odd and for which doubling and the sign of a difference of scalars are exact (IEEE round to nearest with gradual underflow), and for every splitter rule.", "quantifier": "all point sets and queries with coordinates in [0,1], roundings, build options, k, radii", "why_tests_cant": "Rounding errors differ for every input; C46 shows that rounding does break searches in the plane.", "anchors": ["src/pico_tree/pico_tree/internal/kd_tree_search.hpp: search_nearest_topological", "src/pico_tree/pico_tree/internal/segment.hpp: segment_s1::distance", "src/pico_tree/pico_tree/distance.hpp: s1_distance"]}
{"id": "C71", "title": "Searches on SE(2) and the torus are exact on a grid", "statement": "If all coordinates are multiples of a unit that divides one, of at most B units, and d(2B)^2 units are representable, then with the median and sliding midpoint rules the searches with metric_se2_squared and with the torus metric return the mathematically exact result in floating point arithmetic.", "quantifier": "all point sets, queries, units, precisions, stop conditions, k, radii", "why_tests_cant": "As C68; the circle distance adds a branch and a subtraction from one.", "anchors": ["src/pico_tree/pico_tree/internal/kd_tree_search.hpp: search_nearest_topological, box_distance", "src/pico_tree/pico_tree/metric.hpp: metric_se2_squared", "examples/kd_tree/kd_tree_custom_metric.cpp"]}
{"id": "C72", "title": "Building a tree is O(n log n) work and the tree is not deep", "statement": "As documented for median_max_side_t and sliding_midpoint_max_side_t, the construction looks at O(n log n) points (sum of the sizes of all nodes), and the recursion is as deep as the tree is high: O(log n) for the median rule, at most n - max_leaf_size for the sliding midpoint rule.", "quantifier": "all point sets with n points, scalar types, metrics, leaf sizes, standard library implementations", "why_tests_cant": "Asymptotic claim; benchmarks use random points without coinciding ones.", "anchors": ["src/pico_tree/pico_tree/internal/kd_tree_builder.hpp: median_max_side_t, sliding_midpoint_max_side_t (comments)", "src/pico_tree/pico_tree/internal/kd_tree_builder.hpp: splitter_sliding_midpoint_max_side", "src/pico_tree/pico_tree/internal/kd_tree_builder.hpp: create_node"]}
{"id": "C73", "title": "Big endian numbers are decoded correctly on every machine", "statement": "big_endian<T>() and swap_endian give the number whose bytes are stored most significant first, for every integral type of at most 8 bytes, signed or unsigned, independent of the native byte order; swap_endian is its own inverse.", "quantifier": "all byte strings, all widths up to 8", "why_tests_cant": "Tests run on one byte order and a few numbers.", "anchors": ["examples/pico_toolshed/pico_toolshed/format/endian.hpp: swap_endian", "examples/pico_toolshed/pico_toolshed/format/endian.hpp: big_endian_to_native"]}
{"id": "C74", "title": "write_bin followed by read_bin gives the vector back", "statement": "After write_bin(file, v), read_bin(file, w) gives w = v, whatever the file held before; read_bin never reads behind the end of a file.", "quantifier": "all element types, vectors, previous contents of the file", "why_tests_cant": "Depends on previous contents of the file and on the empty vector.", "anchors": ["examples/pico_toolshed/pico_toolshed/format/format_bin.hpp: write_bin", "examples/pico_toolshed/pico_toolshed/format/format_bin.hpp: read_bin"]}
{"id": "C75", "title": "MNIST files are read as written, other files are rejected", "statement": "read_mnist_images and read_mnist_labels return the images (28 x 28) and labels of a file of the published format and throw for all other files: another magic number, other dimensions, too few bytes.", "quantifier": "all files", "why_tests_cant": "Wrong files are unbounded in number; tests do not contain any.", "anchors": ["examples/pico_toolshed/pico_toolshed/format/format_mnist.hpp: read_mnist_images", "examples/pico_toolshed/pico_toolshed/format/format_mnist.hpp: read_mnist_labels"]}
{"id": "C76", "title": "fvecs, bvecs, ivecs files are read as written, other files are rejected", "statement": "read_xvecs returns the vectors of a file of the published format whose vectors have dimension N, and throws for another file name ending or another dimension.", "quantifier": "all files, names, element types, dimensions N", "why_tests_cant": "Wrong files are unbounded in number.", "anchors": ["examples/pico_toolshed/pico_toolshed/format/format_xvecs.hpp: read_xvecs", "examples/pico_toolshed/pico_toolshed/format/format_xvecs.hpp: format_string"]}
{"id": "C77", "title": "Scan poses are rigid motions", "statement": "isometry::from_euler(e, t).transform rotates about z by e[2], about y by e[1], about x by e[0] and translates by t; it preserves distances (as documented) and orientation.", "quantifier": "all angles, translations, points", "why_tests_cant": "A sign error in one of nine entries shows only for particular angles.", "anchors": ["examples/pico_toolshed/pico_toolshed/format/format_uosr.hpp: isometry::from_euler", "examples/pico_toolshed/pico_toolshed/format/format_uosr.hpp: isometry::transform"]}
{"id": "C78", "title": "Scan lines are read point by point", "statement": "read_uosr appends, for every line of every scan in order, the point given by the first three numbers of the line, moved by the pose of the scan; lines without three numbers give no point.", "quantifier": "all texts, poses, number parsers", "why_tests_cant": "Malformed lines do not occur in test data.", "anchors": ["examples/pico_toolshed/pico_toolshed/format/format_uosr.hpp: uosr_scan_reader::read_next", "examples/pico_toolshed/pico_toolshed/format/format_uosr.hpp: read_uosr"]}
{"id": "C79", "title": "Only the points of the space matter", "statement": "What lies in memory behind the n points of a space has no influence: the constructor and every query of a tree give the same result for two spaces that have the same n points.", "quantifier": "all point sets, rules, stop conditions, metrics, queries, visitors, memory contents", "why_tests_cant": "An access behind the end usually finds harmless memory; tests do not vary it.", "anchors": ["src/pico_tree/pico_tree/kd_tree.hpp: kd_tree", "src/pico_tree/pico_tree/internal/kd_tree_builder.hpp: build_kd_tree", "src/pico_tree/pico_tree/internal/kd_tree_search.hpp: search_nearest_euclidean"]}
{"id": "C80", "title": "A tree is not loaded with a space of fewer points", "statement": "kd_tree::load(space, stream) raises an error when the space has fewer points than the saved tree; otherwise, if the first points are the original ones, the loaded tree refers to points of the space only and gives the original answers.", "quantifier": "all trees, spaces, platforms", "why_tests_cant": "The failure reads behind the end of the points, which may or may not crash.", "anchors": ["src/pico_tree/pico_tree/kd_tree.hpp: load", "src/pico_tree/pico_tree/internal/kd_tree_data.hpp: load"]}
{"id": "C81", "title": "Points with NaN coordinates are never reported and do no harm", "statement": "A point with a NaN coordinate is reported by no search, and the answers concerning the other points are the ones of a tree without it. Reported distances are never NaN.", "quantifier": "all trees, metrics, queries over floating point numbers with infinities and NaN", "why_tests_cant": "NaN poisons comparisons in ways that depend on the order of the points.", "anchors": ["src/pico_tree/pico_tree/internal/search_visitor.hpp", "src/pico_tree/pico_tree/internal/box.hpp: contains", "src/pico_tree/pico_tree/internal/kd_tree_builder.hpp: splitter_median_max_side"]}
{"id": "C82", "title": "Queries with NaN find nothing", "statement": "A query point, a radius or a box with NaN gives an empty answer.", "quantifier": "all trees, metrics, queries over floating point numbers with infinities and NaN", "why_tests_cant": "Tests do not query with NaN; the answer depends on the shape of the tree.", "anchors": ["src/pico_tree/pico_tree/internal/search_visitor.hpp", "src/pico_tree/pico_tree/internal/kd_tree_search.hpp: search_box_euclidean", "src/pico_tree/pico_tree/internal/box.hpp: contains"]}
{"id": "C83", "title": "Construction and box search survive overflowing side lengths", "statement": "For coordinates that are not NaN, finite of any size or infinite, and however large the sides of the bounding box, the construction finishes without undefined behaviour, partitions the points, and a box search returns exactly the points in the box.", "quantifier": "all point sets without NaN, all build options, all query boxes without NaN, over floating point numbers with infinities", "why_tests_cant": "Needs coordinates so large that differences overflow; tests use coordinates around one.", "anchors": ["src/pico_tree/pico_tree/internal/kd_tree_builder.hpp: splitter_midpoint_max_side", "src/pico_tree/pico_tree/internal/kd_tree_builder.hpp: splitter_sliding_midpoint_max_side", "src/pico_tree/pico_tree/internal/box.hpp: max_side"]}
{"id": "C84", "title": "Overflow during a nearest neighbor search does not change the answer", "statement": "For finite coordinates and a finite query the nearest, k nearest and radius searches with metric_l1 and metric_l2_squared answer as in an arithmetic without a largest number, except that distances beyond the largest number are infinite and never reported; no NaN appears although differences, squares and node distances may overflow.", "quantifier": "all finite point sets, build options, finite queries and radii, over floating point numbers with infinities", "why_tests_cant": "Needs queries or coordinates so far apart that squares overflow; inf - inf would give NaN and silently wrong pruning.", "anchors": ["src/pico_tree/pico_tree/internal/kd_tree_search.hpp: search_nearest_euclidean", "src/pico_tree/pico_tree/metric.hpp: metric_l1, metric_l2_squared", "src/pico_tree/pico_tree/internal/search_visitor.hpp"]}
{"id": "C85", "title": "Floating point searches on SE(2) and tori err at most by the accumulated rounding error", "statement": "With rounded arithmetic of relative error u per addition, the nearest, k nearest and radius searches of the topological search with metric_se2_squared and metric_t2_squared return points whose computed distances are within (1+u)^(2h)/(1-u)^d of the best ones, h the height of the tree and d the dimension; radius search returns only points within the radius and all those within it by more than that factor.", "quantifier": "all point sets, build options, queries in the domain of the metric, k, radii and rounding functions", "why_tests_cant": "A rounding error that makes the search skip the nearest point needs nearly equal distances at a cell boundary; no finite set of samples bounds the error.", "anchors": ["src/pico_tree/pico_tree/internal/kd_tree_search.hpp: search_nearest_topological", "src/pico_tree/pico_tree/metric.hpp: metric_se2_squared", "examples/kd_tree/kd_tree_custom_metric.cpp: metric_t2_squared"]}
{"id": "C86", "title": "Floating point searches are nearly right in exact arithmetic", "statement": "With relative error u per operation and without underflow of squares, the point found by a nearest neighbor search is, measured exactly, at most (1+u)^(2h+d+m)/(1-u)^(2d+m) times as far as the nearest one (m = 1 for metric_l1, 3 for metric_l2_squared); the same holds between each of the k points returned and each point missing; radius search returns only points that are within the radius exactly up to (1-u)^(d+m) and all those within it by more than the factor.", "quantifier": "all point sets, build options, queries, k, radii; every rounding function, in particular float and double", "why_tests_cant": "Tests compare with a brute force search that makes the same rounding errors; none compares with exact arithmetic, and none covers all inputs.", "anchors": ["src/pico_tree/pico_tree/internal/kd_tree_search.hpp: search_nearest_euclidean", "src/pico_tree/pico_tree/metric.hpp: metric_l1, metric_l2_squared"]}
{"id": "C87", "title": "Eigen matrices and vectors are read as Eigen defines them", "statement": "For every Eigen matrix or map that compiles as a space, point i is column i (row i if row major) and the coordinates the tree reads are the elements of that column; for every Eigen vector, map or block that compiles as a point, the coordinates read are its elements.", "quantifier": "all sizes, storage orders, inner and outer strides and memory contents", "why_tests_cant": "The tests use matrices without strides; there are infinitely many layouts.", "anchors": ["src/pico_tree/pico_tree/eigen3_traits.hpp: eigen_point_traits, eigen_traits_impl", "src/pico_tree/pico_tree/internal/point_wrapper.hpp: point_wrapper", "src/pico_tree/pico_tree/internal/space_wrapper.hpp: space_wrapper"]}
{"id": "C88", "title": "The rotated copy of the points in a forest tree is complete and stays in its memory", "statement": "rotate_space gives a matrix whose row i is the reflection of point i, for all points, without access outside of the matrix; rotate_point may write its output over its input, and writes nothing but its output.", "quantifier": "all dimensions, numbers of points, rotations and arithmetics; all positions of input and output that are equal or do not overlap", "why_tests_cant": "There is no test of the forest; aliasing and bounds have to be shown for all sizes.", "anchors": ["examples/pico_understory/pico_understory/internal/rkd_tree_hh_data.hpp: rotate_space, rotate_point", "examples/pico_understory/pico_understory/internal/matrix_space.hpp: matrix_space"]}
{"id": "C89", "title": "The counting visitor of the examples gives the nearest neighbor and the number of points considered", "statement": "search_nearest with search_nn_counter gives the same neighbor as search_nn, and count() is the number of points presented: each point at most once, hence at most n, and at least all points that are not farther than the result.", "quantifier": "all trees, queries and metrics; the first two parts for any arithmetic", "why_tests_cant": "The example prints a number nobody checks; which points are visited depends on the whole tree.", "anchors": ["examples/kd_tree/kd_tree_custom_search_visitor.cpp: search_nn_counter", "src/pico_tree/pico_tree/kd_tree.hpp: search_nearest"]}
{"id": "C90", "title": "A stored point is found again by its coordinates, in floating point arithmetic", "statement": "If the query equals a stored point, then search_nn reports distance exactly zero, search_radius with any positive radius returns every stored copy of the query, and search_knn returns every copy unless all k neighbors it returns have distance zero. This holds in rounded arithmetic, although rounding can make searches miss a nearest neighbor (C46), and for metric_lpinf and metric_lninf, whose searches are wrong otherwise (C12). With metric_l1 the point found has exactly the coordinates of the query.", "quantifier": "all roundings, point sets, dimensions, splitter and stop rules, leaf sizes, k and radii", "why_tests_cant": "Looking up stored points is tested for a few random sets; the tree decides from rounded running distances.", "anchors": ["src/pico_tree/pico_tree/internal/kd_tree_search.hpp: search_nearest_euclidean, search_nearest_topological", "src/pico_tree/pico_tree/internal/search_visitor.hpp: search_nn, search_knn, search_radius"]}
{"id": "C91", "title": "The searches agree with each other", "statement": "search_knn with k = 1 gives exactly the neighbor of search_nn, and the approximate searches with ratio one are the exact ones, in any arithmetic (also with NaN). What search_radius finds it also finds with a larger radius, in the same order, whatever the rounding. In exact arithmetic (and in one dimension with rounding) the distances of search_nn, of search_knn for every k and of the sorted search_radius are initial segments of one sorted list.", "quantifier": "all trees, queries, metrics, k, radii and buffer contents; the arithmetic as stated", "why_tests_cant": "Agreement of two searches has to hold for all trees and queries; equality of the whole traversal is not observable.", "anchors": ["src/pico_tree/pico_tree/internal/search_visitor.hpp: search_nn, search_knn, search_radius, search_approximate_nn, search_approximate_knn, search_approximate_radius", "src/pico_tree/pico_tree/kd_tree.hpp: search_nn, search_knn, search_radius"]}
{"id": "C92", "title": "Approximate searches keep their ratio in floating point arithmetic up to a rounding factor", "statement": "With ratio e >= 1 the distance stored for the nearest neighbor exceeds no computed distance by more than the rounding factor (1 + u)^(2h) / (1 - u)^d of the exact search, and the distance itself by at most e / (1 - u)^2 times that; the same holds for the k nearest neighbors against the points left out; everything a radius search returns is nearer than the radius without any rounding factor.", "quantifier": "all roundings with relative error u of sums, trees of height h, dimensions d, ratios, k and radii; Euclidean, SE(2) and torus metrics", "why_tests_cant": "The factor depends on the sequence of rounding errors; tests check a few random queries.", "anchors": ["src/pico_tree/pico_tree/internal/search_visitor.hpp: search_approximate_nn, search_approximate_knn, search_approximate_radius", "src/pico_tree/pico_tree/internal/kd_tree_search.hpp: search_nearest_euclidean, search_nearest_topological"]}
{"id": "C93", "title": "A tree holds as many points as its index type can number", "statement": "Building a tree over n points gives each point its own index and each leaf its own range, and reading a leaf through the stored machine integers gives exactly the points put into it, as long as the index type can represent 0, ..., n - 1.", "quantifier": "all numbers of points, widths of the index type, trees and leaves", "why_tests_cant": "No test builds a tree over 2^31 points, and none uses an index type narrower than int.", "anchors": ["src/pico_tree/pico_tree/internal/kd_tree_builder.hpp: build_kd_tree::operator(), create_node", "src/pico_tree/pico_tree/internal/kd_tree_search.hpp: search_nearest", "src/pico_tree/pico_tree/internal/kd_tree_node.hpp: kd_tree_leaf"]}
{"id": "C94", "title": "Cover tree searches in floating point arithmetic", "statement": "In floating point arithmetic the searches of a cover tree still find the points that have the smallest computed distances: rounding of the distances and of the lower bound of a node costs no neighbor.", "quantifier": "all roundings, levelings, insertion orders, point sets, queries, numbers of neighbors, radii and ratios", "why_tests_cant": "The example only runs random points of one magnitude; a wrong answer needs a point whose distance is close to a rounding boundary below a far away node.", "anchors": ["examples/pico_understory/pico_understory/cover_tree.hpp: search_nearest, search_nn, search_knn, search_radius", "examples/pico_understory/pico_understory/metric.hpp: metric_l2", "examples/pico_understory/pico_understory/internal/cover_tree_builder.hpp: update_max_distance"]}
{"id": "C95", "title": "Error ratios below one do no harm", "statement": "The approximate searches accept any number as error ratio. A ratio that is not larger than one asks for no error at all, and the searches then find the exact neighbors, with distances scaled by the inverse ratio.", "quantifier": "all trees, queries, ratios (NaN and infinity included), numbers of neighbors and radii", "why_tests_cant": "Tests use a few ratios above one.", "anchors": ["src/pico_tree/pico_tree/internal/search_visitor.hpp: search_approximate_nn, search_approximate_knn, search_approximate_radius", "src/pico_tree/pico_tree/kd_tree.hpp: search_nn, search_knn, search_radius"]}
{"id": "C96", "title": "The kd_forest in floating point arithmetic", "statement": "In floating point arithmetic kd_forest::search_nn, given a leaf budget of at least the number of leaves, returns a point that is as close to the query as the closest point, up to a small relative error of the distance.", "quantifier": "all point sets, queries, normals, budgets, every rounding with a bounded relative error; float with up to 256 dimensions", "why_tests_cant": "Tests use points near the origin, where the rounding of the rotation is small.", "anchors": ["examples/pico_understory/pico_understory/internal/kd_tree_priority_search.hpp: priority_search_nearest_euclidean", "examples/pico_understory/pico_understory/internal/rkd_tree_hh_data.hpp: rotate_point, random_normal", "examples/pico_understory/pico_understory/kd_forest.hpp: search_nn", "src/pico_tree/pico_tree/internal/point.hpp: normalize"]}
{"id": "C97", "title": "On a grid, near points are found exactly", "statement": "If all coordinates are multiples of one unit c (of any size) and the multiples of c and c^2 up to L are representable, then with the median and sliding midpoint rules everything closer than L c^2 (L c for metric_l1) is found mathematically exactly: the nearest neighbor if it is that close, the k nearest neighbors if they are, and radius searches up to that radius. Distances of other points may be rounded. For float and integer coordinates (pixels, SIFT descriptors) the limit is 2^24.", "quantifier": "all point sets, dimensions, queries, precisions, grids, stop conditions, k, radii", "why_tests_cant": "A rounded running distance of far nodes could prune a near point for rare inputs only.", "anchors": ["src/pico_tree/pico_tree/internal/kd_tree_search.hpp: search_nearest_euclidean", "src/pico_tree/pico_tree/metric.hpp: metric_l1, metric_l2_squared", "examples/kd_forest/mnist.hpp", "examples/kd_forest/sift.hpp"]}
{"id": "C98", "title": "The precision reported by the kd_forest example", "statement": "The precision that the kd_forest example prints is the fraction of the test points for which the forest found a nearest neighbor, whether or not the answers of the kd_tree come from an earlier run.", "quantifier": "all training and test sets, normals, budgets, contents of the file of answers", "why_tests_cant": "The example is run on two data sets only; ties and stale files need special inputs.", "anchors": ["examples/kd_forest/kd_forest.cpp: run_kd_forest, run_kd_tree, run_dataset", "examples/pico_toolshed/pico_toolshed/format/format_bin.hpp: read_bin, write_bin"]}
{"id": "C99", "title": "The oracles of the tests are right", "statement": "The helpers test_box, test_radius and test_knn of the unit tests accept exactly the right results: a search that passes is right, and a right search passes.", "quantifier": "all results, point sets, radii, boxes, k", "why_tests_cant": "Nothing tests the tests.", "anchors": ["test/pico_tree/common.hpp: search_knn, test_box, test_radius, test_knn"]}
{"id": "C100", "title": "Weaker demands never cost more", "statement": "A search that asks for less looks at a sub-sequence of the points that the search asking for more looks at: the approximate search (ratio at least one) compared with the exact one, one neighbor with k, k with more than k, a smaller radius with a larger one, and a radius search that finds nothing with the nearest neighbor search. No search looks at a point twice, and the answer depends on the points looked at only.", "quantifier": "all point sets, trees, queries, ratios, k, radii; Euclidean and topological metrics", "why_tests_cant": "The tests check answers only; which points were looked at is not observable from outside.", "anchors": ["src/pico_tree/pico_tree/internal/kd_tree_search.hpp: search_nearest_euclidean, search_nearest_topological", "src/pico_tree/pico_tree/internal/kd_tree_visitor.hpp"]}
{"id": "C101", "title": "A larger ratio is faster", "statement": "If the ratio of an approximate nearest neighbor search is increased, the search looks at no point that it did not look at before.", "quantifier": "all point sets, queries, ratios at least one", "why_tests_cant": "A benchmark shows averages only.", "anchors": ["src/pico_tree/pico_tree/internal/kd_tree_visitor.hpp: search_approximate_nearest", "src/pico_tree/pico_tree/internal/kd_tree_search.hpp: search_nearest_euclidean"]}
{"id": "C102", "title": "A search opens the leaves near the query, and only these", "statement": "When a Euclidean search opens a leaf other than the first one, then the cell of the leaf (bounded by the middles of the gaps between siblings) contains a place that is not farther from the query than the maximum of the visitor at that moment; the cell of the first leaf contains the query. Conversely no leaf is left out whose tight cell (bounded by the outermost points instead) contains a place that is not farther than the maximum ever gets. For radius searches the maximum is the radius, for the nearest neighbor the distance of the best point so far.", "quantifier": "all point sets, trees without empty leaves, queries, visitors", "why_tests_cant": "Which leaves are opened cannot be observed from outside; a search that opens all of them passes every test.", "anchors": ["src/pico_tree/pico_tree/internal/kd_tree_search.hpp: search_nearest_euclidean"]}
{"id": "C103", "title": "The regular nearest ancestor cover tree keeps all points, searches exactly and has the invariants of a cover tree", "statement": "With SIMPLIFIED_NEAREST_ANCESTOR_COVER_TREE undefined, the other variant of the builder (insert with a growing root, rebalance with insert) finishes without undefined behaviour, places every point in exactly one node, records the right largest distances, so that the searches are exact, and the finished tree has the invariants of the simplified variant (levels, covering, separation, nearest ancestor).", "quantifier": "all bases, point sets, metrics, insertion orders and implementations of std::partition", "why_tests_cant": "The variant is switched off by a macro in the header; no test compiles it, and small trees happen to be right.", "anchors": ["examples/pico_understory/pico_understory/internal/cover_tree_builder.hpp: insert, rebalance", "examples/pico_understory/pico_understory/cover_tree.hpp: SIMPLIFIED_NEAREST_ANCESTOR_COVER_TREE"]}
{"id": "C104", "title": "Box search reads the points of the leaves on the border of the query and only these", "statement": "A box search in a Euclidean space looks at the coordinates of a point exactly if the tight cell of its leaf (the places not beyond the outermost points of the children at the branches above) meets the query box and has, within the box of the tree, a place outside of the query box. Points in the other leaves are reported, or left out, without a look.", "quantifier": "all point sets, dimensions, metrics, rules, stop conditions, bounds, query boxes with min <= max, and all other coordinates put in the place of those the tree was built from", "why_tests_cant": "Tests see which indices come back, not which coordinates were looked at; reporting whole nodes without need of the test changes no answer.", "anchors": ["src/pico_tree/pico_tree/internal/kd_tree_search.hpp: search_box"]}
{"id": "C105", "title": "Box search takes O(n^(1-1/dimension)+k) time", "statement": "As promised in the comment on search_box, the number of points a box search looks at is bounded by a constant times n^(1-1/d) + k + 1, where k is the number of points reported.", "quantifier": "all point sets, dimensions, metrics, rules and query boxes", "why_tests_cant": "Tests time nothing, and the growth for bad point sets appears only for all n.", "anchors": ["src/pico_tree/pico_tree/internal/kd_tree_search.hpp: search_box", "src/pico_tree/pico_tree/internal/kd_tree_builder.hpp: splitter_rule_traits"]}
{"id": "C106", "title": "Answers do not depend on the origin and the unit of length", "statement": "If all points, the bounds given to the construction, and the query are moved by a vector and multiplied by a positive factor (poses: moved in the plane), the tree is the same one with moved boxes, and every search looks at the same points in the same order and returns the same points; only distances are multiplied by the factor (squared distances by its square). For integer coordinates this holds for moving.", "quantifier": "all point sets, vectors, positive factors, rules, stop conditions, queries, k, radii and ratios, as long as no number leaves the range of the scalar type and halving a length does not depend on the unit (exact arithmetic, or factor 1)", "why_tests_cant": "A test has to pick a few vectors and factors; that no comparison of the builder or of a search depends on where the origin is, or on the unit, is a statement about all of them.", "anchors": ["src/pico_tree/pico_tree/internal/kd_tree_builder.hpp: splitter_rule_traits, create_node", "src/pico_tree/pico_tree/internal/kd_tree_search.hpp: search_nearest_euclidean, search_nearest_topological, search_box", "src/pico_tree/pico_tree/internal/box.hpp: box_base"]}
{"id": "C107", "title": "A directory of scans gives the points of exactly its scans", "statement": "read_uosr reads the regular files called scanNNN.3d (three digits) of a directory and no others, moves the points of each by the pose in scanNNN.pose (three coordinates, three angles in degrees), appends one point for each line, in the order of the directory, and refuses scans whose pose is missing or malformed.", "quantifier": "all directories, names, texts, and all functions that convert text to numbers", "why_tests_cant": "The examples come with well-formed data only; that no other name is accepted and that no pose file leads to an uninitialised read are statements about all names and all texts.", "anchors": ["examples/pico_toolshed/pico_toolshed/format/format_uosr.hpp: read_uosr, uosr_scan_reader::read_pose"]}
{"id": "C108", "title": "Text files hold all points with all their digits", "statement": "write_ascii writes one line for each point, in order, and the text determines every coordinate; uosr_to_bin followed by bin_to_ascii leaves the points of the scans of the directory in scans.txt.", "quantifier": "all vectors of points, all finite coordinates, all ways of printing ten significant digits, all states of the directory", "why_tests_cant": "There are 2^32 floats and 2^64 doubles; whether ten digits tell all of them apart, near every power of two and among the subnormal numbers, is a theorem about the rounding and not something to be sampled.", "anchors": ["examples/pico_toolshed/pico_toolshed/format/format_ascii.hpp: write_ascii", "examples/pico_toolshed/pico_toolshed/point.hpp: operator<<", "examples/benchmark/uosr_to_bin.cpp: main", "examples/benchmark/bin_to_ascii.cpp: main"]}
{"id": "C109", "title": "The size of a tree in memory and in a file", "statement": "A tree with L leaves has 2 L - 1 nodes; L is at most the number of points (median and sliding midpoint rules), at most 2^m for a maximum depth m and at least n / m for a maximum leaf size m. Building or loading it takes as few chunks of nodes as they fit into. The saved file has a size that depends only on the number of points, of dimensions and of leaves.", "quantifier": "all point sets, rules, stop conditions (that fit the index type), chunk sizes, platforms", "why_tests_cant": "A test compares the sizes of a few trees; that no chunk is started too early or left out and no byte is written twice is a statement about all trees.", "anchors": ["src/pico_tree/pico_tree/internal/memory.hpp: chunk_allocator", "src/pico_tree/pico_tree/internal/kd_tree_builder.hpp: create_node", "src/pico_tree/pico_tree/internal/kd_tree_data.hpp: read_node, write_node, save"]}
{"id": "C110", "title": "The unit tests of the repository hold", "statement": "Every expectation of segment_test, distance_test, metric_test, box_test, kd_tree_builder_test, kd_tree_test.cpp and kd_tree_test.py holds: those with fixed inputs in single precision for every standard library, those with random points for all points.", "quantifier": "all implementations of std::partition, std::nth_element, std::sort; for the random tests all point sets", "why_tests_cant": "A test run uses one standard library and one draw of the random points. Here the expectations are shown for all of them, and LeafRanges turns out to be wrong for some draws.", "anchors": ["test/pico_tree/segment_test.cpp", "test/pico_tree/distance_test.cpp", "test/pico_tree/metric_test.cpp", "test/pico_tree/box_test.cpp", "test/pico_tree/kd_tree_builder_test.cpp", "test/pico_tree/kd_tree_test.cpp", "test/pyco_tree/kd_tree_test.py"]}
{"id": "C111", "title": "Multiplying all coordinates by a power of two changes no answer in floating point arithmetic", "statement": "If all coordinates, the bounds and the query point are multiplied by a power of two, the construction gives the same tree with multiplied borders, and all searches read the same points in the same order and return the same answers, bit by bit, with exactly multiplied distances.", "quantifier": "all powers of two, precisions, dimensions, point sets, queries, construction options and implementations of the standard algorithms, as long as nothing comes near the largest number", "why_tests_cant": "A change of unit is the usual way to move data between programs. Whether rounding in the running distance of the search depends on the unit cannot be seen from examples; underflow shows up only for particular magnitudes.", "anchors": ["src/pico_tree/pico_tree/internal/kd_tree_builder.hpp", "src/pico_tree/pico_tree/internal/kd_tree_search.hpp", "src/pico_tree/pico_tree/metric.hpp"]}
{"id": "C112", "title": "Failures of the file system are reported", "statement": "kd_tree::save raises an error unless everything was written, and kd_tree::load raises an error for a file that was cut.", "quantifier": "all trees, devices, cuts, contents of uninitialised memory, platforms; static and dynamic dimension; C++ and Python", "why_tests_cant": "Tests have an empty disk and complete files. What happens to a file that is cut depends on the place of the cut and on what the memory held before.", "anchors": ["src/pico_tree/pico_tree/internal/stream_wrapper.hpp: open_stream, read, write", "src/pico_tree/pico_tree/internal/kd_tree_data.hpp: load, save, read_node, write_node", "src/pico_tree/pico_tree/kd_tree.hpp: load, save", "src/pyco_tree/pico_tree/_pyco_tree/kd_tree.hpp: load_kd_tree"]}
{"id": "C113", "title": "Running out of memory leaves nothing behind", "statement": "If memory runs out while a tree is built or loaded, the exception reaches the caller, everything that was allocated so far is released, and other trees are not affected. If no allocation fails nothing is thrown, the tree is the same as with unlimited memory, and destroying it releases all of its memory.", "quantifier": "all point sets, options, bytes, patterns of failing allocations, behaviours of new, chunk sizes; dimensions known at compile time or at run time; any other trees in memory", "why_tests_cant": "Tests never run out of memory. A build makes many allocations, any of which can fail, at any depth of the recursion.", "anchors": ["src/pico_tree/pico_tree/internal/kd_tree_builder.hpp: build_kd_tree::operator(), create_node", "src/pico_tree/pico_tree/internal/memory.hpp", "src/pico_tree/pico_tree/internal/kd_tree_data.hpp: load, read, read_node", "src/pico_tree/pico_tree/internal/box.hpp: box_storage"]}
{"id": "C114", "title": "Answers do not depend on the choice of the axes", "statement": "Points and query are described in another frame of reference: turned, mirrored and shifted for metric_l2_squared; axes swapped, mirrored and shifted for every metric that is a sum over the axes; circles turned and mirrored for topological metrics; a rigid motion of the plane for metric_se2_squared. Then nearest neighbor, k nearest neighbor and radius search give the same distances, and the same points wherever no two points are equally far. Box search with the moved box gives the same points when axes are swapped, mirrored or shifted and when the circle is turned.", "quantifier": "all point sets, dimensions, options (also different ones for the two trees), orthogonal matrices, translations, permutations of the axes, angles, queries; exact arithmetic", "why_tests_cant": "The trees before and after the move have nothing in common: other splits, other shapes, other traversals. Tests use one frame.", "anchors": ["src/pico_tree/pico_tree/metric.hpp: metric_l2_squared, metric_so2, metric_se2_squared", "src/pico_tree/pico_tree/internal/box.hpp", "src/pico_tree/pico_tree/internal/kd_tree_search.hpp"]}
{"id": "C115", "title": "A saved tree may be loaded with another metric", "statement": "The file of a tree does not depend on the metric. Loaded with another metric it is the tree that would have been built with that metric, and its searches are exact for it. This holds for two Euclidean metrics and for two topological metrics. A file of the other kind is rejected.", "quantifier": "all point sets, options, metrics, arithmetic, platforms, padding bytes, following bytes", "why_tests_cant": "Tests load a tree with the metric it was saved with. That a file is meaningful for a metric depends on all nodes and searches.", "anchors": ["src/pico_tree/pico_tree/kd_tree.hpp: load, save, kd_tree", "src/pico_tree/pico_tree/internal/kd_tree_data.hpp: read, write", "src/pico_tree/pico_tree/internal/kd_tree_node.hpp: kd_tree_branch_single, kd_tree_branch_double"]}
{"id": "C116", "title": "An approximate nearest neighbor query takes logarithmic time", "statement": "With the sliding midpoint rule an approximate nearest neighbor query is answered in O(1/e^d log n) time, as the comments say: the number of calls of search_nearest and of points looked at is bounded by a constant (for a fixed dimension and error ratio) times log n. Each call of search_nearest is on the way to a leaf that is opened, so that the number of calls is at most the number of opened leaves times the height of the tree plus one.", "quantifier": "all point sets, queries, error ratios, rules, leaf sizes; every visitor for the second sentence", "why_tests_cant": "A bound on time is a statement about all sizes at once; benchmarks show single sizes of benign data. The point sets that break it are made on purpose.", "anchors": ["src/pico_tree/pico_tree/internal/kd_tree_builder.hpp:57-58", "src/pico_tree/pico_tree/internal/kd_tree_search.hpp: search_nearest", "examples/kd_tree/kd_tree_search.cpp:60-63"]}
{"id": "C117", "title": "A call from Python performs the search that its arguments name", "statement": "search_knn, search_radius and search_box have several overloads with the same name. Whatever is passed, in whatever mixture of positions and keywords: a call reaches the overload with exactly the arguments that were given, each given object is used for the parameter it was given for, and objects of the wrong kind are an error. In particular a call with an error ratio is approximate.", "quantifier": "all Python objects as arguments, all splits into positional arguments and keywords, all orders of the keywords", "why_tests_cant": "The tests make eight calls with floats and arrays in the documented order; the combinations of kinds, positions and keywords are not bounded, and the wrong overload also returns a plausible answer.", "anchors": ["src/pyco_tree/pico_tree/_pyco_tree/def_kd_tree.cpp:59-180"]}
{"id": "C118", "title": "search_knn from Python is memory safe for every integer k", "statement": "For every Python integer k, search_knn(pts, k) either raises an exception or returns an output with the k results of each query point. It never writes outside of the output, also not when k is negative, larger than a size_t or so large that the number of all results does not fit into a size_t.", "quantifier": "all integers k, all arrays of query points, all outputs, all trees", "why_tests_cant": "The tests use k = 1 and 2. The numbers for which the product wraps around to the size of the output are a set of measure zero that random tests do not hit.", "anchors": ["src/pyco_tree/pico_tree/_pyco_tree/kd_tree.hpp:117-177", "src/pyco_tree/pico_tree/_pyco_tree/kd_tree.hpp:362-378"]}
{"id": "C119", "title": "From arrays to arrays: the Python class answers with the rows of the array", "statement": "For every NumPy array of points with a floating point type, KdTree(pts, metric, max_leaf_size), also after save_kd_tree and load_kd_tree with an array that holds the same points, has the attributes of the array, and search_knn, search_radius and search_box in any documented form of call return for each row of the queries the answer with respect to the rows of the array: the k nearest rows in order, the rows within the radius each once, the rows inside of the box each once; with an error ratio within that ratio. Whatever an output that is passed held before does not matter.", "quantifier": "all arrays of points and of queries in both orders, metrics, leaf sizes, numbers of neighbors, radii, error ratios, mixtures of positional arguments and keywords, any number of saving and loading", "why_tests_cant": "The Python tests compare shapes and one search against itself on one random array; that the overload, the view of the memory, the tree and the layout of the output fit together for all arrays is not tested.", "anchors": ["src/pyco_tree/pico_tree/_pyco_tree/kd_tree.hpp:88-545", "src/pyco_tree/pico_tree/_pyco_tree/kd_tree.hpp:602-614", "src/pyco_tree/pico_tree/_pyco_tree/def_kd_tree.cpp:40-200"]}
{"id": "C120", "title": "A file of another scalar type is not accepted", "statement": "load_kd_tree(pts, filename) raises an error if the file was saved from a tree with another scalar type than that of pts, as it does for a file with another signature, version or metric.", "quantifier": "all arrays of points, all files", "why_tests_cant": "Tests load with the array the tree was made from. A wrong file often loads without a sign of an error and only the searches misbehave, for some values of the coordinates.", "anchors": ["src/pyco_tree/pico_tree/_pyco_tree/kd_tree.hpp:406-437", "src/pyco_tree/pico_tree/_pyco_tree/kd_tree.hpp:547-606"]}
{"id": "C121", "title": "A query of another dimension is rejected", "statement": "A query point, the corners of a box and start bounds whose number of coordinates differs from that of the points are rejected, at compile time or when the call is made. With the right number every search reads the query, the corners, the points and the index list inside of their bounds only, and gives the result of the search over abstract points.", "quantifier": "all trees built, all queries, boxes and bounds of any length, all visitors", "why_tests_cant": "Tests use queries of the right dimension. A read behind an array of two scalars mostly gives some value and no crash, and a static_assert that is missing cannot be seen by running the code.", "anchors": ["src/pico_tree/pico_tree/kd_tree.hpp:106-120", "src/pico_tree/pico_tree/kd_tree.hpp:295-318", "src/pico_tree/pico_tree/internal/kd_tree_search.hpp", "src/pico_tree/pico_tree/internal/point_wrapper.hpp", "src/pico_tree/pico_tree/internal/kd_tree_builder.hpp:502-511"]}
{"id": "C122", "title": "A metric made for a fixed dimension is rejected for points of another dimension", "statement": "metric_so2 is defined for points with one coordinate and metric_se2_squared for points with three. A tree of points of another dimension with one of them is rejected; with the right dimension the coordinates are read inside of their bounds and the nearest neighbor is found.", "quantifier": "all spaces of points, all queries", "why_tests_cant": "Tests use the metrics with points of the right dimension. With another dimension the searches compile, and are right for many points.", "anchors": ["src/pico_tree/pico_tree/metric.hpp:187-257", "src/pico_tree/pico_tree/kd_tree.hpp:20-60"]}
{"id": "C123", "title": "A tree whose points move after the construction", "statement": "A tree over a reference, a view or a NumPy array sees the points as they are at the time of the search. Wherever they went, a search shows each point at most once to the visitor, with the distance to where it is now. Nearest, k nearest, radius and box searches are exact for the points of now as long as every point stays on its side of each split above it (and, for the box, inside the root box); for this it is enough that it stays in the smallest box around the old points of its leaf. Without that condition points are missed, and a box search can report points outside of the box.", "quantifier": "all point sets, all later positions of the points, all build options, all metrics, all queries and boxes", "why_tests_cant": "Tests never change the points below a tree. Whether a stale tree still answers right depends on the query and on the way through the tree.", "anchors": ["src/pico_tree/pico_tree/kd_tree.hpp:56-66", "src/pico_tree/pico_tree/kd_tree.hpp:410-415", "src/pico_tree/pico_tree/internal/kd_tree_search.hpp", "src/pyco_tree/pico_tree/_pyco_tree/kd_tree.hpp:88-92"]}
{"id": "C124", "title": "The height of a tree that halves its cells does not depend on the number of points", "statement": "If at most max_leaf_size points coincide, different points differ by at least s along some axis, and the sides of the start box are shorter than s 2^L, then the midpoint and the sliding midpoint rule build a tree of at most d L levels, whatever the number of points, and the sizes of all nodes add up to at most n (d L + 1).", "quantifier": "all point sets, dimensions, leaf sizes, start boxes that contain the points, scalar types", "why_tests_cant": "A test sees the height for one set of points; the bound is for every number and arrangement of points with the same resolution.", "anchors": ["src/pico_tree/pico_tree/internal/kd_tree_builder.hpp:38-66", "src/pico_tree/pico_tree/internal/kd_tree_builder.hpp:177-275", "src/pico_tree/pico_tree/internal/kd_tree_builder.hpp:350-400"]}
{"id": "C125", "title": "A view gives exactly the points it was made from", "statement": "A point_map or space_map made by any of its constructors has as many elements as the memory it was made from, and element i (coordinate j of point i) is the i-th (the (i sdim + j)-th) scalar of that memory; no constructor or access touches anything else.", "quantifier": "all memories, offsets, sizes, dimensions (known at compile time or not), constructors", "why_tests_cant": "The tests make one view per type with the right size; other sizes, empty ranges and missing dimensions are not tried, and a read outside of the memory need not be noticed.", "anchors": ["src/pico_tree/pico_tree/map.hpp:12-64", "src/pico_tree/pico_tree/map.hpp:66-107", "src/pico_tree/pico_tree/map.hpp:111-169", "src/pico_tree/pico_tree/opencv_traits.hpp:111-116"]}
{"id": "C126", "title": "A larger budget or more trees never worsen a search of the kd_forest", "statement": "In exact arithmetic the priority search takes the nodes of a tree from its queue in the order of their distances, none of the points below a node being closer than that distance. Therefore search_nn never returns a larger distance if max_leaves_visited grows, or if trees are added behind the others, and a search with a radius then finds at least what it found before.", "quantifier": "all d, n, rotations, point sets, queries, budgets, forests, metrics that add up contributions of the axes", "why_tests_cant": "The test compares one budget with the exact answer; that no pair of budgets is the wrong way round concerns all pairs, and a better first answer changes which nodes are put into the queue at all.", "anchors": ["examples/pico_understory/pico_understory/internal/kd_tree_priority_search.hpp:48-127", "examples/pico_understory/pico_understory/internal/kd_tree_priority_search.hpp:135-140", "examples/pico_understory/pico_understory/kd_forest.hpp:69-115"]}
{"id": "C127", "title": "Boxes in memory: each operation is the one on values and touches only its box", "statement": "contains, max_side, fill_inverse_max and both fits of a box or a view of a box read and write exactly the coordinates they name: the result is that of the operation on the values (each end the minimum or maximum with the point), everything else in memory stays as it was, also if the fitted point lies in the memory of the box. A new box has memory for all of its coordinates.", "quantifier": "all memories, positions of the ends and of the point, sizes (known at compile time or not), scalar types, also unordered values", "why_tests_cant": "The tests fit separate points to separate boxes; overlapping memory, moved-from boxes and sizes near the end of size_t are not tried.", "anchors": ["src/pico_tree/pico_tree/internal/box.hpp:31-110", "src/pico_tree/pico_tree/internal/box.hpp:160-233", "src/pico_tree/pico_tree/internal/box.hpp:236-290"]}
{"id": "C128", "title": "Moved trees: every program of constructions, moves and destructions keeps the trees", "statement": "A kd_tree that is moved, by construction or assignment, holds the tree and the point set of its source and answers like it, whatever happens to the source and to other trees afterwards; moving loses no memory; a source can still be used safely; assigning a tree to itself, or swapping, leaves it intact.", "quantifier": "all programs with any number of objects, built or loaded, in any order of moves and destructions, with memory that may run out; every behaviour of new, every chunk size, dimensions known at compile time or at run time", "why_tests_cant": "The test moves one tree once and searches it. Nodes are found through raw pointers which moves copy, so what matters is who frees which chunk, and when, over all sequences of operations.", "anchors": ["src/pico_tree/pico_tree/kd_tree.hpp:76-102", "src/pico_tree/pico_tree/internal/kd_tree_data.hpp:66-73", "src/pico_tree/pico_tree/internal/memory.hpp:35-80", "src/pico_tree/pico_tree/internal/box.hpp:160-193"]}
{"id": "C129", "title": "Searches, leaf_ranges and save follow the node pointers safely and answer as the tree they represent", "statement": "Every search, leaf_ranges and save of a kd_tree object, followed from node to node through the memory, dereferences only pointers to nodes that are allocated and assigned, reads only the member of the union that is stored, calls itself no deeper than the tree is high, and returns exactly what the tree that was built or loaded returns: the true neighbors, the points in the box, the ranges of the leaves, the bytes of the tree.", "quantifier": "all programs that build, load, move and destroy any number of trees, all objects, all queries, visitors, metrics, point sets and platforms, every behaviour of new, every chunk size", "why_tests_cant": "A wild pointer often reads a plausible node, and which memory is reused depends on the allocator and on the order of moves and destructions; tests try a few orders and cannot see reads of freed nodes that still hold old contents.", "anchors": ["src/pico_tree/pico_tree/internal/kd_tree_search.hpp:46-105", "src/pico_tree/pico_tree/internal/kd_tree_search.hpp:144-203", "src/pico_tree/pico_tree/internal/kd_tree_search.hpp:270-372", "src/pico_tree/pico_tree/internal/kd_tree_data.hpp:54-135", "src/pico_tree/pico_tree/internal/kd_tree_node.hpp:6-126"]}
{"id": "C130", "title": "Building, moving and searching a cover tree follow its node pointers safely", "statement": "Whenever the construction of a cover tree finishes, every pointer that it followed pointed at an existing node, no vector of children changed while it was looped over, no buffer had to grow, and memory holds exactly the tree of the construction on values, with its recorded distances: one block, its nodes depth first and without gaps. The first buffer is freed and other trees are unchanged. A search through the pointers of the object, or of an object it was moved to, gives the true neighbors.", "quantifier": "all point sets, insertion orders, levelings, metrics, behaviours of new, capacities of vectors, partitions and sorts; all queries and visitors; any other trees in memory", "why_tests_cant": "The code holds raw pointers into vectors while it rebalances, detaches and copies nodes. A vector that grows, or a loop over children that change, leaves pointers dangling only for some shapes of trees, and stale memory usually still reads as a plausible node.", "anchors": ["examples/pico_understory/pico_understory/internal/cover_tree_builder.hpp:45-384", "examples/pico_understory/pico_understory/internal/static_buffer.hpp:12-32", "examples/pico_understory/pico_understory/internal/cover_tree_data.hpp:10-23", "examples/pico_understory/pico_understory/internal/cover_tree_search.hpp:36-80", "examples/pico_understory/pico_understory/cover_tree.hpp:66-81"]}
{"id": "C131", "title": "The height and degree of a cover tree do not depend on the number of points", "statement": "With a base of at least two: if the indexed points are distinct and their largest distance is at most base^n times their smallest one, then no path of a finished cover tree has more than n + 3 nodes, whatever the number of points and the order in which they were inserted, and a nearest neighbor search succeeds with n + 3 nested calls. In d dimensions no node has more than (floor(2 base k) + 1)^d children, where k is 1 for metric_lpinf, d for metric_l1 and the root of d for metric_l2; the latter also holds when points coincide.", "quantifier": "all finished constructions: all finite non-empty lists of indices, all orders, all bases of at least two over an ordered field (the reals for metric_l2), all metrics that bound coordinate differences, all std::partition results, all std::sort results, all queries", "why_tests_cant": "The bounds are about all point sets of all sizes; a run shows the height of one tree and cannot show that a larger set of the same spread never needs a deeper stack.", "anchors": ["examples/pico_understory/pico_understory/internal/cover_tree_builder.hpp:101-233", "examples/pico_understory/pico_understory/internal/cover_tree_base.hpp:14-36", "examples/pico_understory/pico_understory/internal/cover_tree_search.hpp:36-80", "examples/pico_understory/pico_understory/cover_tree.hpp:76-116"]}
{"id": "C132", "title": "DArrays are typed values that share no memory", "statement": "In every Python program a DArray keeps the type that it was made for; a search with an output of another type raises and changes nothing; a search with an output of its type replaces all elements by its results, whatever the array held; a slice is a copy; d[i] and iteration give NumPy arrays that show the elements in order, as they are now; an assignment to such an array changes exactly this place of this element of this DArray. No statement changes any other DArray, and the only statement that can be undefined is an assignment to a NumPy array whose memory was freed before (C59).", "quantifier": "all programs of creations, searches, slices, indexing, iteration, assignments and destructions, all result sizes, all growth policies of std::vector", "why_tests_cant": "Sharing shows only when one of two arrays is changed after a particular history of reuse, growth and slicing; there are unboundedly many histories.", "anchors": ["src/pyco_tree/pico_tree/_pyco_tree/darray.hpp:30-89", "src/pyco_tree/pico_tree/_pyco_tree/darray.hpp:112-285", "src/pyco_tree/pico_tree/_pyco_tree/def_darray.cpp:9-65", "src/pyco_tree/pico_tree/_pyco_tree/kd_tree.hpp:179-274", "src/pyco_tree/pico_tree/_pyco_tree/kd_tree.hpp:346-358"]}
{"id": "C133", "title": "Forests in memory: no leak, no dangling pointer, and searches through node pointers find what the trees hold", "statement": "A kd_forest object can be built, move constructed, move assigned (also to a forest that holds trees) and destroyed in any order; only the construction throws, and only when memory ran out, leaving nothing behind; when no forest is left all memory is freed. A search of a forest follows node pointers from the priority queue and from parent to child, and for any query with at least as many scalars as the points it reads only inside of its objects and returns what the search of the trees as values returns: the nearest neighbor for a sufficient budget, no worse neighbor for a larger budget. A forest that was moved from is empty: a search of it visits nothing.", "quantifier": "all programs of constructions, moves and destructions of forests, all allocators and all patterns of failing allocations, all point sets, rotations, leaf sizes, queries, budgets and conforming priority queues", "why_tests_cant": "Wrong sharing of nodes shows only for particular histories of moves and reused addresses, and the order of the queue depends on the addresses of the nodes; both are unbounded and out of the control of a test.", "anchors": ["examples/pico_understory/pico_understory/kd_forest.hpp:42-115", "examples/pico_understory/pico_understory/internal/kd_tree_priority_search.hpp:20-140", "examples/pico_understory/pico_understory/internal/rkd_tree_builder.hpp:15-41", "examples/pico_understory/pico_understory/internal/rkd_tree_hh_data.hpp:18-92"]}
{"id": "C134", "title": "The answers of several trees over parts of the points combine to those of one tree", "statement": "When the points are divided over several trees, in any way and with different build options, the nearest neighbor of all points is the nearest one of those found in the parts, sorting the k nearest neighbors of the parts and taking the first k gives k nearest neighbors of all points with the distances one tree over all points reports, the neighbors within a radius and the points in a box are those found in the parts, each once; and more points never push a neighbor away: position by position the k nearest of all points are at least as near as those of a part.", "quantifier": "all point sets, divisions into non-empty parts (so also all renumberings of one set), build options for each tree, queries, k, radii, boxes and prior contents; Euclidean and topological metrics in exact arithmetic, one dimension with rounding, boxes in any arithmetic", "why_tests_cant": "The number of ways to divide points is exponential, and ties between parts are decided by the order in the leaves; a test compares few divisions.", "anchors": ["src/pico_tree/pico_tree/kd_tree.hpp", "src/pico_tree/pico_tree/internal/kd_tree_search.hpp", "src/pico_tree/pico_tree/internal/kd_tree_builder.hpp"]}
{"id": "C135", "title": "Distances change no faster than the query moves", "statement": "Moving the query by some distance changes the distance of the nearest neighbor, and of the neighbor at each position of a k nearest neighbor search, by at most that distance; and what a radius search finds is found from the other query with the radius enlarged by it (for the squared metrics: of the roots of the distances).", "quantifier": "all point sets, trees, pairs of queries, k, radii and prior contents; metric_l1, metric_l2_squared, metric_so2, metric_se2_squared in exact arithmetic", "why_tests_cant": "A statement on all pairs of queries; pruning errors show up as jumps at positions a test would have to guess.", "anchors": ["src/pico_tree/pico_tree/metric.hpp", "src/pico_tree/pico_tree/kd_tree.hpp", "src/pico_tree/pico_tree/internal/kd_tree_search.hpp"]}
{"id": "C136", "title": "The example programs print what they are meant to print", "statement": "The programs kd_tree_minimal, kd_tree_custom_point_type, kd_tree_creation, kd_tree_save_and_load, kd_tree_custom_space_type, kd_tree_dynamic_arrays (examples/kd_tree) run without undefined behaviour and print the index that their comments and data call for: minimal and custom_point_type print 1, creation prints 1 for each of its eleven trees (leaf size, depth limit, given bounds, median rule, two metrics, points copied, moved or referred to), save_and_load prints 1 after loading, custom_space_type prints 2, and the dynamic array programs print the index of the point the query was made from, for all counts, dimensions and leaf sizes; with a leaf size of one every point is a leaf, with a depth limit of zero the tree is a single leaf. The neighbors that the Python example finds with search_knn (one and two neighbors) and search_radius for the rows of its array are the same for every standard library and leaf size, and after saving and loading.", "quantifier": "every standard library behaviour allowed for nth_element and sort, every content of the output variable before the search, all sufficient fuel; for the dynamic arrays all numbers of points, dimensions and leaf sizes up to the exactly represented range of double; for the shape statements all point sets and options", "why_tests_cant": "Running the examples shows one standard library and one prior content; the sizes of the dynamic array programs are parameters.", "anchors": ["examples/kd_tree/kd_tree_minimal.cpp", "examples/kd_tree/kd_tree_creation.cpp", "examples/kd_tree/kd_tree_save_and_load.cpp", "examples/kd_tree/kd_tree_custom_space_type.cpp", "examples/kd_tree/kd_tree_dynamic_arrays.cpp", "examples/python/kd_tree.py"]}
{"id": "C137", "title": "Radii and ratios may be given as lengths", "statement": "With the metric applied to a length or a ratio, as the documentation and the examples do (tree.metric()(radius), tree.metric()(1 + max_error)), the searches speak about lengths: a radius search with metric(r) reports exactly the points nearer than |r|; with the ratio metric(1 + p) an approximate nearest neighbor, and the neighbor at each position of an approximate k nearest neighbor search, is at most 1 + p times as far away as the true one, and an approximate radius search reports only points nearer than |r| and all points nearer than |r| / (1 + p). Distances are metric(length), in approximate searches metric(length / (1 + p)). Lengths are the distances of R^d with the 1-, 2- or P-norm, of the circle R/Z, of the product of plane and circle, and of the torus.", "quantifier": "all point sets, queries, radii, errors p >= 0, k, build options and prior contents; metric_l1, metric_l2_squared, metric_lp_p, metric_so2, metric_se2_squared, metric_t2_squared over the real numbers, and any metric of powers of lengths over an ordered field", "why_tests_cant": "The bounds relate all points to one another for every radius and ratio; a test compares a few, and with squared distances it repeats the conversion it should check.", "anchors": ["src/pico_tree/pico_tree/kd_tree.hpp", "src/pico_tree/pico_tree/metric.hpp", "examples/kd_tree/kd_tree_search.cpp", "examples/kd_tree/kd_tree_custom_metric.cpp", "examples/python/kd_tree.py"]}
{"id": "C138", "title": "From arrays to arrays in floating point arithmetic", "statement": "A Python KdTree of an array of floats, made by the constructor or loaded from a file, answers search_knn and search_radius in every form of the call as follows, although each operation is rounded. Always: the neighbors are different rows of the array with the distances the metric computes, below the radius or in ascending order. Queries that are rows of the array (any metric) find distance zero first, and the row itself, with every positive radius always. If the coordinates are small multiples of one number (Metric.L1, Metric.L2Squared), the answers are exactly the nearest rows or the rows within the radius and the distances are not rounded. For arrays of numbers (one column) the answers are exact with respect to the computed distances. For all other arrays no neighbor is farther than a missing row, and no row within the radius is missing, up to a factor close to one that depends on the precision, the dimension and the height of the tree.", "quantifier": "all valid arrays of points and queries (C or Fortran order, with offsets), all leaf sizes, all k up to the number of points, all radii, all arithmetics that round monotonically (binary32 and binary64 among them), all standard libraries, all ways to pass the arguments", "why_tests_cant": "Rounding errors depend on all bits of all coordinates, and a wrong neighbor shows only for rare combinations of them; the tests use three rows with small integers.", "anchors": ["src/pyco_tree/pico_tree/_pyco_tree/kd_tree.hpp", "src/pyco_tree/pico_tree/_pyco_tree/def_kd_tree.cpp", "src/pico_tree/pico_tree/kd_tree.hpp", "src/pico_tree/pico_tree/internal/kd_tree_search.hpp"]}
{"id": "C139", "title": "The example programs with random points print neighbors", "statement": "The programs search_r3 and search_s1 (kd_tree_search.cpp), search_t2 and search_lp3_3 (kd_tree_custom_metric.cpp) and kd_tree_custom_search_visitor.cpp run without undefined behaviour in single precision, whatever points the random number generator makes between its borders. search_s1 prints the eight points closest to 1 on the circle by computed distance, in order. search_t2 prints eight different points of the torus in order, none of which is farther than a point left out by more than 15 percent, search_lp3_3 prints the index of a point farther than any other by at most 15 percent. The number of points visited is at least one and at most the number of points. search_r3 ends, however often its searches are repeated into the same variables, with a nearest neighbor that is farther than no point by more than 15 percent (squared distance), different points closer than 2 including all that are closer by more than that, exactly the points in the box, and eight neighbors in order (approximate ones farther than a missing point by at most two thirds, exact ones by at most 15 percent).", "quantifier": "all point sets with coordinates between the borders, all numbers of points (from eight where eight are printed; up to 2^20 for the programs in the plane and in space, any number of repetitions), every standard library, every content of the uninitialised output, all sufficient fuel, every std::pow that keeps the order of nonnegative numbers", "why_tests_cant": "The points are random: a run sees one set of them; deep trees, ties and rounding in the accumulated box distances depend on the set.", "anchors": ["examples/kd_tree/kd_tree_search.cpp", "examples/kd_tree/kd_tree_custom_metric.cpp", "examples/kd_tree/kd_tree_custom_search_visitor.cpp", "examples/pico_toolshed/pico_toolshed/point.hpp"]}
{"id": "C140", "title": "Approximate searches in floating point arithmetic, in C++ and from Python", "statement": "A search with a ratio e returns, in every arithmetic and with every metric: different points, each with its computed distance times the computed inverse of e, in order or below the stored radius. If each operation is rounded with a small relative error (Metric.L1, Metric.L2Squared, e at least 1), search_knn with a ratio from Python gives k different rows whose stored distances exceed the computed distance of no missing row by more than (1+u)^(2h)/(1-u)^d; in terms of computed distances the rows found are farther than the missing ones by at most e/(1-u)^2 times that factor. search_radius with a ratio gives only rows below the radius, and all rows below the stored radius by that factor. This holds for every form of the Python call, for trees made and trees loaded.", "quantifier": "all arrays of points and queries, dimensions, leaf sizes, ratios and radii, every standard library, every rounding, all forms of the call; the genuine part for all metrics and all space tags", "why_tests_cant": "The stored distance, the ratio and the box distances are each rounded; which rows may be missed depends on their combination over the height of the tree.", "anchors": ["src/pico_tree/pico_tree/internal/search_visitor.hpp", "src/pico_tree/pico_tree/kd_tree.hpp", "src/pyco_tree/pico_tree/_pyco_tree/kd_tree.hpp"]}
{"id": "C141", "title": "A file that loads is a file that save writes", "statement": "Take any sequence of bytes, wherever it comes from. If kd_tree load reads a tree from it, then save of the loaded tree writes exactly the bytes that were read, apart from the padding bytes of the node types, whose content is arbitrary. The same holds for load_kd_tree and save_kd_tree of the Python module, header included. With a dimension known at compile time the file has to hold this dimension: a file with another one loads as well, but save never writes it. For trees of a scalar type of four bytes there is no padding, so two files that load as the same tree are equal.", "quantifier": "all files, all trees, all dimensions, both node types, every platform whose types are determined by their bytes, all contents of uninitialised memory", "why_tests_cant": "Tests save and load trees that were built; here the files are arbitrary sequences of bytes.", "anchors": ["src/pico_tree/pico_tree/internal/stream_wrapper.hpp", "src/pico_tree/pico_tree/internal/kd_tree_data.hpp", "src/pyco_tree/pico_tree/_pyco_tree/kd_tree.hpp"]}
{"id": "C142", "title": "True arcs on the circle under rounding", "statement": "On the circle (metric_so2) the answers of the searches in floating point arithmetic are compared with the true arcs between the angles. If the relative error of one addition is at most u, every distance is right up to the absolute error e = u(1+u); the nearest neighbor found is at most 2e farther than any point, no point left out by search_knn is nearer than a found one by more than 2e, and search_radius returns only arcs below r+e and all arcs below r-e. The angles 0 and 1, which are the same, are treated alike up to 2e. The error is not relative: next to the seam a point can be returned with distance zero although another one is nearer by a factor of eight million.", "quantifier": "all points and queries in [0,1], leaf sizes, splitter rules, every rounding that satisfies the assumptions of C70; float (e = 2^-24(1+2^-24)) as an instance", "why_tests_cant": "The tests use angles with few digits away from the seam; the error depends on how the distance across the seam is rounded.", "anchors": ["src/pico_tree/pico_tree/distance.hpp", "src/pico_tree/pico_tree/metric.hpp", "src/pico_tree/pico_tree/internal/kd_tree_search.hpp"]}
{"id": "C143", "title": "Scalar types narrower than int, and unsigned ones", "statement": "With std::uint8_t, std::uint16_t, std::int8_t or std::int16_t as scalar type, where C++ computes with int and converts back, the searches with metric_l1 and metric_l2_squared are exact provided that the true distances from the query to all points are below numeric_limits::max() of the scalar type; no int overflows on the way that matters. search_box is exact without any condition. It is not enough that the coordinates fit: among the bytes 16 and 1, metric_l2_squared names 16 as the nearest neighbor of 0. With unsigned int, which is not promoted, search_nn and search_radius miss the query itself even though all coordinates are at most 30 and all distances exact, because left_max + right_min - v - v > 0 holds whenever it is not zero.", "quantifier": "all integer types of 8 and 16 bits, all points and queries, leaf sizes, splitter rules other than midpoint, every outcome of int operations that overflow", "why_tests_cant": "The tests use int, float and double coordinates only.", "anchors": ["src/pico_tree/pico_tree/internal/kd_tree_search.hpp", "src/pico_tree/pico_tree/metric.hpp", "src/pico_tree/pico_tree/distance.hpp", "src/pico_tree/pico_tree/core.hpp"]}
{"id": "C144", "title": "Approximate searches with integer scalars", "statement": "If the scalar type is an integer type such as int, the inverse ratio 1 / e of the approximate searches is an integer division. With e = 1 the approximate searches are the exact ones. With every larger ratio, the approximate search_radius returns nothing whatever the radius is, and the approximate search_nn and search_knn report the distance zero for every neighbor; the neighbor found can be farther away than the true one by any factor, although the documentation promises a factor of e.", "quantifier": "all integer types that are not promoted, whatever overflow yields, all metrics, spaces, points, queries, radii, ratios of at least one, leaf sizes and splitter rules", "why_tests_cant": "The approximate searches are tested with float coordinates only.", "anchors": ["src/pico_tree/pico_tree/internal/search_visitor.hpp", "src/pico_tree/pico_tree/kd_tree.hpp"]}
{"id": "C145", "title": "The order of the points and the standard library do not matter", "statement": "Let the same points be given in two orders, and let the two trees be built with two implementations of std::partition and std::nth_element. With the midpoint rule, or if points that agree in one coordinate are equal, the trees have the same nodes (boxes, split dimensions, bounds and index ranges) and each leaf holds the same points. Then every search whose bound depends on the points it has seen, not on their order, looks at the same points: search_nn and search_knn, exact and approximate, report the same distances, search_radius, exact and approximate, the same points with the same distances. If the computed distances have no ties, search_nn reports the same point. With points that share a coordinate and the median rules the claim is false: another order gives another approximate answer.", "quantifier": "all linearly ordered scalar types with any addition, subtraction and multiplication, whatever they round, all metrics and spaces, all permutations of the points, all standard libraries that keep their contracts, all queries, radii, ratios and k", "why_tests_cant": "A test runs one standard library on one order of the points.", "anchors": ["src/pico_tree/pico_tree/internal/kd_tree_builder.hpp", "src/pico_tree/pico_tree/internal/kd_tree_search.hpp", "src/pico_tree/pico_tree/internal/search_visitor.hpp", "src/pico_tree/pico_tree/kd_tree.hpp"]}
{"id": "C146", "title": "What the benchmarks count", "statement": "The benchmarks read the points that were written to their files. Whatever the leaf size and the standard library, the loop of the benchmark of boxes adds up the number of pairs of a test point p and a point between p - radius and p + radius; in floating point arithmetic these are the points at most radius away in each coordinate, and beyond these only points exactly on the rounded border. The loop for the k nearest neighbors adds up the number of test points times min(k, number of points), for the kd_tree in any arithmetic and for the cover tree, whose loop over groups is a loop over all test points, in exact arithmetic. The loop of the radius benchmark adds up the number of pairs closer than the radius, at most as many as the boxes count. With an empty file of points the neighbor benchmark is undefined behaviour.", "quantifier": "all files, points, test points, leaf sizes, radii and k, all standard libraries; boxes and neighbors of the kd_tree for all linearly ordered scalar types with any arithmetic", "why_tests_cant": "The benchmarks are not run by the tests, and nothing looks at what they add up.", "anchors": ["examples/benchmark/benchmark.hpp", "examples/benchmark/bm_pico_kd_tree.cpp", "examples/benchmark/bm_pico_cover_tree.cpp", "examples/pico_toolshed/pico_toolshed/point.hpp"]}
{"id": "C147", "title": "Construction reads every coordinate, and they have to outlive operator[]", "statement": "The builder sees a space as pointers to scalars. If the first sdim scalars behind the pointer of every point can be read then construction does what it does for the points read, whatever it ends with, and reads nothing else. It reads all of them with every rule, stop condition and standard library, also when the bounds are given: a tree comes out only if every coordinate of every point is there. One coordinate too few in any point is undefined behaviour. space_wrapper::operator[] returns a pointer into what point_at returned: references and views of the space are good, points that a custom point_at returns by value are destroyed before the first read, and every construction from at least one point is undefined behaviour.", "quantifier": "all spaces, numbers of points, dimensions, rules, stop conditions, bounds and standard libraries, Euclidean and topological trees, any amount of fuel", "why_tests_cant": "Tests have spaces with all coordinates in place; a read one past the end or through a dangling pointer usually returns something.", "anchors": ["src/pico_tree/pico_tree/internal/space_wrapper.hpp:29-40", "src/pico_tree/pico_tree/internal/kd_tree_builder.hpp:153-303,352-407,466-511", "src/pico_tree/pico_tree/internal/box.hpp:86-95", "src/pico_tree/pico_tree/vector_traits.hpp", "examples/kd_tree/kd_tree_custom_space_type.cpp:21-26"]}
{"id": "C148", "title": "The unit tests of the cover tree pass", "statement": "Whatever the random points and the random order of insertion are: once the tree is built, the tests of the k nearest neighbors pass, and the radius test comes to a verdict, which is a pass if and only if no point is exactly at the radius from the query. For points that are all different the tests end. If two points coincide and a third one is elsewhere, there is an order of insertion with which the tests never end.", "quantifier": "all points, numbers of points, orders of insertion, k, standard libraries, bases and metrics with the triangle inequality, in exact arithmetic; c148_tests for metric_l2 with the real square root and the constants of the tests", "why_tests_cant": "These are the tests: they sample one set of points and one order for each run.", "anchors": ["test/pico_tree/cover_tree_test.cpp:19-62", "test/pico_tree/common.hpp:54-79,130-214", "examples/pico_understory/pico_understory/cover_tree.hpp:84-189"]}
{"id": "C149", "title": "How far off an approximate search may be", "statement": "The promise of the approximate searches cannot be improved: in two or more dimensions there is, for every error below the ratio, a tree and a query whose approximate nearest neighbor is that many times as far away as the nearest one, and for every distance between radius / ratio and radius a tree whose approximate radius search finds nothing although there is a point at that distance. On a line or on the circle, however, the approximate nearest neighbor is always a nearest one if the tree was built with the median or the sliding midpoint rule, whatever the ratio; with the midpoint rule, whose leaves may be empty, it need not be. This holds for the nearest neighbor only: the second neighbor and radius searches may be off on a line as well.", "quantifier": "all dimensions, errors, ratios, standard libraries (any std::partition), sorting or not; on a line and the circle all points, queries, positive ratios and trees of the two rules; any metric that adds over the axes; exact arithmetic", "why_tests_cant": "Tests check the promise on samples; that it is the best one, or that nothing is lost on a line, is about all ratios, errors and trees.", "anchors": ["src/pico_tree/pico_tree/kd_tree.hpp:131-150,197-237,277-290", "src/pico_tree/pico_tree/internal/kd_tree_search.hpp:52-105,147-221", "src/pico_tree/pico_tree/internal/search_visitor.hpp: search_approximate_nn, search_approximate_radius"]}
{"id": "C150", "title": "The plots of the benchmarks show every measurement once", "statement": "plot_benchmarks.py shows every reported build, k nearest neighbor and radius benchmark exactly once: in the plot of its category, on the line labelled with its class, method and second argument, at its first argument and its cpu time, in the order of the file. Of repeated benchmarks it shows the means and nothing else. Lines do not mix different benchmarks as long as their names have no underscores. Box searches are in no plot, and a search benchmark that is not named Ct or Rt stops the script.", "quantifier": "all lists of reports whose classes and methods are named as in the repository (no slash or newline, the method begins with its kind and Ct or Rt), all arguments and times", "why_tests_cant": "There are no tests of the script; that its four regular expressions with their backtracking take every name apart correctly is about all names and arguments.", "anchors": ["examples/benchmark/plot_benchmarks.py:18-53,72-78", "examples/benchmark/bm_pico_kd_tree.cpp:49-57,80-103,132-145,173-186", "examples/benchmark/bm_nanoflann.cpp:54-62,92-116"]}
{"id": "C151", "title": "A dynamic_space shows the space that it was made from", "statement": "A dynamic_space has no compile time dimension; its dimension, number of points and coordinates are those of the space it was made from, and reading all coordinates is defined. That remains so after any changes of the program to the space, directly, through the reference or through the conversion to Space_&, if the space has a compile time dimension or has the dimension it had at construction. If the dimension became larger the points are cut, if it became smaller reading the points is undefined. The library accepts dynamic spaces of spaces and of references to spaces, and no references to dynamic spaces and nothing nested deeper.", "quantifier": "all space types nested from space types with traits of their own, references and dynamic spaces; all well formed spaces; all sequences of changes", "why_tests_cant": "WriteRead uses one dynamic_space of one vector that does not change; which nestings compile is not tested at all, and a stale dimension needs a space that is resized after the construction.", "anchors": ["examples/pico_toolshed/pico_toolshed/dynamic_space.hpp:12-61", "src/pico_tree/pico_tree/space_traits.hpp:18-27", "src/pico_tree/pico_tree/internal/space_wrapper.hpp:27-52", "test/pico_tree/kd_tree_test.cpp:125-148"]}
{"id": "C152", "title": "The unit tests of the space adaptors pass, and what they check", "statement": "The tests of the adaptors for std::vector, Eigen matrices of both storage orders, OpenCV matrices and views pass, for matrices of any size that have a point and whatever their contents, and read nothing outside of the memory. check_space_adaptor passes exactly if the dimension and the number of points are the expected ones and one point has the expected coordinates up to four units in the last place. It does not notice an adaptor that confuses other points, and in the tests of the views, where the view is asked for the expected dimension, no wrong dimension.", "quantifier": "all matrices without gaps with at least one point, all vectors of points with at least one point, all views whose first point is in memory, all contents (finite numbers), all adaptors", "why_tests_cant": "The matrices of the tests are random, so each run checks other contents; what a test would let through cannot be seen from its passing.", "anchors": ["test/pico_tree/common.hpp:10-12,22-51", "test/pico_tree/eigen3_traits_test.cpp:7-38", "test/pico_tree/opencv_traits_test.cpp:7-24", "test/pico_tree/vector_traits_test.cpp:8-33", "test/pico_tree/space_map_traits_test.cpp:8-40"]}
