{
 "claims": [
  {
   "property": "C01",
   "status": "proved",
   "theorems": [
    "Pico.Props.c01_nn_l1",
    "Pico.Props.c01_nn_l2"
   ],
   "note": "Hypotheses: the build finished, coordinates representable, distances below numeric_limits::max(); exact ordered-ring arithmetic."
  },
  {
   "property": "C02",
   "status": "proved",
   "theorems": [
    "Pico.Props.c02_knn_l1",
    "Pico.Props.c02_knn_l2"
   ],
   "note": "Hypotheses: the build finished, coordinates representable, distances below numeric_limits::max(); exact ordered-ring arithmetic."
  },
  {
   "property": "C03",
   "status": "partial",
   "theorems": [
    "Pico.Props.c03_range_partial",
    "Pico.Props.c03_range_topological_partial",
    "Pico.Props.c03_false"
   ],
   "note": "Hypotheses: the build finished, coordinates representable, distances below numeric_limits::max(); exact ordered-ring arithmetic. c03_false: for k > n the tail of the range keeps old entries. The partial theorems give the whole contents of the range."
  },
  {
   "property": "C04",
   "status": "proved",
   "theorems": [
    "Pico.Props.c04_radius_l1",
    "Pico.Props.c04_radius_l2"
   ],
   "note": "Hypotheses: the build finished, coordinates representable, distances below numeric_limits::max(); exact ordered-ring arithmetic."
  },
  {
   "property": "C05",
   "status": "proved",
   "theorems": [
    "Pico.Props.c05_nn_approx",
    "Pico.Props.c05_nn_approx_l1",
    "Pico.Props.c05_nn_approx_l2"
   ],
   "note": "Hypotheses: the build finished, coordinates representable, distances below numeric_limits::max(); exact ordered-ring arithmetic."
  },
  {
   "property": "C06",
   "status": "proved",
   "theorems": [
    "Pico.Props.c06_knn_approx",
    "Pico.Props.c06_knn_approx_l1",
    "Pico.Props.c06_knn_approx_l2"
   ],
   "note": "Hypotheses: the build finished, coordinates representable, distances below numeric_limits::max(); exact ordered-ring arithmetic."
  },
  {
   "property": "C07",
   "status": "proved",
   "theorems": [
    "Pico.Props.c07_radius_approx",
    "Pico.Props.c07_radius_approx_l1",
    "Pico.Props.c07_radius_approx_l2"
   ],
   "note": "Hypotheses: the build finished, coordinates representable, distances below numeric_limits::max(); exact ordered-ring arithmetic."
  },
  {
   "property": "C08",
   "status": "proved",
   "theorems": [
    "Pico.Props.c08_box",
    "Pico.Props.c08_box_order",
    "Pico.Props.c08_box_inverted"
   ],
   "note": "Start bounds contain the points."
  },
  {
   "property": "C09",
   "status": "proved",
   "theorems": [
    "Pico.Props.c09_box",
    "Pico.Props.c09_box_so2",
    "Pico.Props.c09_box_se2"
   ],
   "note": "Start bounds contain the points."
  },
  {
   "property": "C10",
   "status": "proved",
   "theorems": [
    "Pico.Props.c10_nn_so2",
    "Pico.Props.c10_knn_so2",
    "Pico.Props.c10_radius_so2"
   ],
   "note": "Hypotheses: the build finished, coordinates representable, distances below numeric_limits::max(); exact ordered-ring arithmetic. Custom start bounds must lie in [0,1] when the midpoint rule is used."
  },
  {
   "property": "C11",
   "status": "proved",
   "theorems": [
    "Pico.Props.c11_nn_se2",
    "Pico.Props.c11_knn_se2",
    "Pico.Props.c11_radius_se2"
   ],
   "note": "Hypotheses: the build finished, coordinates representable, distances below numeric_limits::max(); exact ordered-ring arithmetic. Custom start bounds must lie in [0,1] on the circle axis when the midpoint rule is used."
  },
  {
   "property": "C12",
   "status": "partial",
   "theorems": [
    "Pico.Props.c12_distance",
    "Pico.Props.c12_nn_partial",
    "Pico.Props.c12_knn_partial",
    "Pico.Props.c12_radius_partial",
    "Pico.Props.c12_one_dim_partial",
    "Pico.Props.c12_false",
    "Pico.Props.c12_tight"
   ],
   "note": "c12_false: metric_lpinf is pruned with summed offsets and misses the nearest neighbor in two dimensions. Partial: the result is at most d times farther; exact in one dimension. c12_tight: no factor below d would do, in any dimension, and a radius search finds nothing though there is a point at 1/c of the radius."
  },
  {
   "property": "C13",
   "status": "partial",
   "theorems": [
    "Pico.Props.c13_distance",
    "Pico.Props.c13_nn_partial",
    "Pico.Props.c13_knn_partial",
    "Pico.Props.c13_radius_partial",
    "Pico.Props.c13_one_dim_partial",
    "Pico.Props.c13_false",
    "Pico.Props.c13_unbounded"
   ],
   "note": "c13_false: metric_lninf misses the nearest neighbor in two dimensions. Partial: what is still guaranteed; exact in one dimension. c13_unbounded: in every dimension from two on the error is not bounded by any factor."
  },
  {
   "property": "C14",
   "status": "proved",
   "theorems": [
    "Pico.Props.c14_visitor_contract",
    "Pico.Props.c14_visitor_all_points"
   ],
   "note": "Hypotheses: the build finished, coordinates representable, distances below numeric_limits::max(); exact ordered-ring arithmetic."
  },
  {
   "property": "C15",
   "status": "proved",
   "theorems": [
    "Pico.Props.c15_nn_euclidean",
    "Pico.Props.c15_knn_euclidean",
    "Pico.Props.c15_radius_euclidean",
    "Pico.Props.c15_nn_topological",
    "Pico.Props.c15_knn_topological",
    "Pico.Props.c15_radius_topological",
    "Pico.Props.c15_lp_euclidean",
    "Pico.Props.c15_torus_topological"
   ],
   "note": "Hypotheses: the build finished, coordinates representable, distances below numeric_limits::max(); exact ordered-ring arithmetic."
  },
  {
   "property": "C16",
   "status": "proved",
   "theorems": [
    "Pico.Props.c16_partition",
    "Pico.Props.c16_exactly_once"
   ],
   "note": "Any scalar type, any arithmetic, any conforming standard library; hypothesis: the build finished."
  },
  {
   "property": "C17",
   "status": "partial",
   "theorems": [
    "Pico.Props.c17_leaf_ranges_partial",
    "Pico.Props.c17_characterisation",
    "Pico.Props.c17_false"
   ],
   "note": "The code dereferences null children of an empty leaf: c17_false is a witness (midpoint rule). Proved for the median and sliding midpoint rules; c17_characterisation gives the outcome for every tree."
  },
  {
   "property": "C18",
   "status": "partial",
   "theorems": [
    "Pico.Props.c18_leaf_size_partial",
    "Pico.Props.c18_single_leaf_partial",
    "Pico.Props.c18_false"
   ],
   "note": "Proved for stop values that fit the signed index type. The code narrows the size_t value: c18_false shows that 2^32 and SIZE_MAX never finish."
  },
  {
   "property": "C19",
   "status": "partial",
   "theorems": [
    "Pico.Props.c19_leaf_depth_partial",
    "Pico.Props.c19_false"
   ],
   "note": "Proved for depth limits that fit the signed index type; c19_false: 2^32 is narrowed to 0."
  },
  {
   "property": "C20",
   "status": "proved",
   "theorems": [
    "Pico.Props.c20_nonempty"
   ],
   "note": "Any scalar type, any arithmetic; hypothesis: the build finished."
  },
  {
   "property": "C21",
   "status": "partial",
   "theorems": [
    "Pico.Props.c21_balanced",
    "Pico.Props.c21_height_partial",
    "Pico.Props.c21_false"
   ],
   "note": "Balance proved without restriction; the height bound for stop values that fit the index type (c21_false: 2^32+1 is narrowed to 1)."
  },
  {
   "property": "C22",
   "status": "partial",
   "theorems": [
    "Pico.Props.c22_terminates_partial",
    "Pico.Props.c22_terminates_depth_partial",
    "Pico.Props.splitSafe_field",
    "Pico.Props.splitSafe_int",
    "Pico.Props.splitSafe_rounding",
    "Pico.Props.c18_false"
   ],
   "note": "Proved for stop values that fit the index type and arithmetic without overflow on the coordinates (SplitSafe, shown for exact fields, 32-bit-like integers and rounded arithmetic). c18_false: stop values that are narrowed to a non-positive number never finish."
  },
  {
   "property": "C23",
   "status": "partial",
   "theorems": [
    "Pico.Props.c23_midpoint_partial",
    "Pico.Props.c23_rounding_partial",
    "Pico.Props.c23_ieee_partial",
    "Pico.Props.c23_false",
    "Pico.Props.c23_stuck_false",
    "Pico.Props.c23_float_false",
    "Pico.Props.c23_int_false"
   ],
   "note": "c23_false: more than m coincident points recurse forever. c23_stuck_false, c23_float_false: in floating point arithmetic also different points, if the midpoint is rounded to the lower side of the cell; c23_int_false: with integers no points at all are separated. c23_midpoint_partial: otherwise the build finishes in exact Archimedean arithmetic with a start box containing the points; c23_rounding_partial, c23_ieee_partial: with rounding, if different coordinates differ by at least 16 u times the largest."
  },
  {
   "property": "C24",
   "status": "proved",
   "theorems": [
    "Pico.Props.c24_euclidean",
    "Pico.Props.c24_topological",
    "Pico.Props.c24_box",
    "Pico.Props.c24_box_topological"
   ],
   "note": "Hypotheses: the build finished, coordinates representable, distances below numeric_limits::max(); exact ordered-ring arithmetic."
  },
  {
   "property": "C25",
   "status": "partial",
   "theorems": [
    "Pico.Props.c25_nearest_partial",
    "Pico.Props.c25_box_superset_partial",
    "Pico.Props.c25_box_superset_topological_partial",
    "Pico.Props.c25_box_false",
    "Pico.Props.c25_so2_false"
   ],
   "note": "c25_box_false: bounds that do not contain the points give false box results; c25_so2_false: bounds outside [0,1] with the midpoint rule give a wrong nearest neighbor on the circle. Nearest searches with Euclidean metrics are independent of the bounds; box searches never lose points."
  },
  {
   "property": "C26",
   "status": "proved",
   "theorems": [
    "Pico.Props.c26_nn",
    "Pico.Props.c26_knn_any",
    "Pico.Props.c26_knn",
    "Pico.Props.c26_knn_topological",
    "Pico.Props.c26_radius",
    "Pico.Props.c26_box"
   ],
   "note": "Hypotheses: the build finished, coordinates representable, distances below numeric_limits::max(); exact ordered-ring arithmetic. c26_nn and c26_knn_any hold for any arithmetic."
  },
  {
   "property": "C27",
   "status": "partial",
   "theorems": [
    "Pico.Props.c27_false",
    "Pico.Props.c27_defined_partial"
   ],
   "note": "c27_false: k = 0 dereferences std::prev(begin) of an empty range, for every tree and query. Defined for k >= 1."
  },
  {
   "property": "C28",
   "status": "proved",
   "theorems": [
    "Pico.Props.c28_roundtrip",
    "Pico.Props.c28_roundtrip_dynamic",
    "Pico.Props.c28_built",
    "Pico.Props.c28_built_topological",
    "Pico.Props.c28_coordinates",
    "Pico.Props.c28_coordinates_topological"
   ],
   "note": "Every platform whose types hold the sizes involved; every content of the padding bytes; every data before and behind in the stream. Same platform on both sides. The file opening functions are not modelled. c28_coordinates: with the median and the sliding rule only the coordinates of the points, the corners of given start bounds and the limits of the scalar type need an encoding."
  },
  {
   "property": "C29",
   "status": "proved",
   "theorems": [
    "Pico.Props.c29_sequence",
    "Pico.Props.c29_prefix",
    "Pico.Props.c29_prefix_dynamic"
   ],
   "note": "Every platform whose types hold the sizes involved; every content of the padding bytes; every data before and behind in the stream. Running out of data is the outcome eof of the model: the code does not test the stream state and goes on with indeterminate values."
  },
  {
   "property": "C30",
   "status": "proved",
   "theorems": [
    "Pico.Props.c30_accepts_iff",
    "Pico.Props.c30_rejects",
    "Pico.Props.c30_written",
    "Pico.Props.c30_roundtrip"
   ],
   "note": "Holds for every file, also truncated ones, and every content of the uninitialised local variables. The body of a file behind a correct header is not validated by the code."
  },
  {
   "property": "C31",
   "status": "partial",
   "theorems": [
    "Pico.Props.c31_no_alias_partial",
    "Pico.Props.c31_freed_partial",
    "Pico.Props.c31_ends",
    "Pico.Props.c31_held_twice",
    "Pico.Props.c31_false"
   ],
   "note": "Partial: proved for programs that do not allocate from a moved-from allocator and do not move-assign to an allocator that owns memory. c31_false: a moved-from chunk_allocator keeps its chunk pointer and index and hands out objects of its successor."
  },
  {
   "property": "C32",
   "status": "partial",
   "theorems": [
    "Pico.Props.c31_no_alias_partial",
    "Pico.Props.c31_freed_partial",
    "Pico.Props.c32_false",
    "Pico.Props.c32_self_false",
    "Pico.Props.c32_alias_false"
   ],
   "note": "The statement is false for the code: list_pool_resource::operator= overwrites head_ without releasing it (c32_false, c32_self_false leak), and the moved-from allocator aliases its successor or uses freed memory (c32_alias_false). Proved part: assignment to an empty or moved-from allocator, with no allocation from a moved-from one."
  },
  {
   "property": "C33",
   "status": "proved",
   "theorems": [
    "Pico.Props.c33_knn",
    "Pico.Props.c33_radius",
    "Pico.Props.c33_radius_approx",
    "Pico.Props.c33_knn_schedule",
    "Pico.Props.c33_programs",
    "Pico.Props.c33_cells_schedule",
    "Pico.Props.c33_radius_step",
    "Pico.Props.c33_box_step"
   ],
   "note": "Every interleaving of the iterations of the OpenMP loop. A cell of a vector result is one shared variable; hypotheses: queries and outputs in valid arrays of the right dimension."
  },
  {
   "property": "C34",
   "status": "partial",
   "theorems": [
    "Pico.Props.c34_partial",
    "Pico.Props.c34_false",
    "Pico.Props.c34_zero_false"
   ],
   "note": "Hypotheses: the build finished, coordinates representable, distances below numeric_limits::max(); exact ordered-ring arithmetic. c34_zero_false: k = 0 is undefined behaviour. c34_false: for k greater than the number of points the remaining cells of the new array hold index 0 and distance 0. Partial: k at least one and at most the number of points."
  },
  {
   "property": "C35",
   "status": "partial",
   "theorems": [
    "Pico.Props.c35_new_partial",
    "Pico.Props.c35_one_partial",
    "Pico.Props.c35_given_partial",
    "Pico.Props.c35_resized_partial",
    "Pico.Props.c35_order_false",
    "Pico.Props.c35_shape_false",
    "Pico.Props.c35_strided_false",
    "Pico.Props.c35_reversed_false"
   ],
   "note": "Four witnesses against the statement: F ordered queries, output of another shape with the same number of elements, strided output, reversed output. Partial: C ordered queries, or k = 1, or a fitting contiguous output."
  },
  {
   "property": "C36",
   "status": "proved",
   "theorems": [
    "Pico.Props.c36_index",
    "Pico.Props.c36_slice",
    "Pico.Props.c36_slice_step"
   ],
   "note": "Fewer than 2^63 elements; the slice is specified after the Python Language Reference."
  },
  {
   "property": "C37",
   "status": "proved",
   "theorems": [
    "Pico.Props.c37_pairs",
    "Pico.Props.c37_odd",
    "Pico.Props.c37_exact"
   ],
   "note": ""
  },
  {
   "property": "C38",
   "status": "partial",
   "theorems": [
    "Pico.Props.c38_accept",
    "Pico.Props.c38_view",
    "Pico.Props.c38_metric",
    "Pico.Props.c38_mat_partial",
    "Pico.Props.c38_false",
    "Pico.Props.c38_mat_false"
   ],
   "note": "c38_false: an F ordered array with one column is also C ordered and read as rows; c38_mat_false: a cv::Mat with gaps between rows is read wrongly. NumPy arrays that are only C or only F ordered are read correctly."
  },
  {
   "property": "C39",
   "status": "partial",
   "theorems": [
    "Pico.Props.c39_partial",
    "Pico.Props.c39_false"
   ],
   "note": "Static dimensions (2, 3) raise. c39_false: with a run time dimension longer queries are accepted and the metric reads behind the points."
  },
  {
   "property": "C40",
   "status": "proved",
   "theorems": [
    "Pico.Props.c40_euclidean",
    "Pico.Props.c40_topological",
    "Pico.Props.c40_box"
   ],
   "note": "Hypotheses: the build finished, coordinates representable, distances below numeric_limits::max(); exact ordered-ring arithmetic."
  },
  {
   "property": "C41",
   "status": "proved",
   "theorems": [
    "Pico.Props.c41_l1",
    "Pico.Props.c41_lpinf",
    "Pico.Props.c41_so2",
    "Pico.Props.c41_l2_squared",
    "Pico.Props.c41_se2_squared",
    "Pico.Props.c41_scalar",
    "Pico.Props.c41_scalar_circle",
    "Pico.Props.c41_scalar_se2"
   ],
   "note": "Exact arithmetic."
  },
  {
   "property": "C42",
   "status": "proved",
   "theorems": [
    "Pico.Props.c42_cells"
   ],
   "note": "Exact arithmetic."
  },
  {
   "property": "C43",
   "status": "proved",
   "theorems": [
    "Pico.Props.c43_z_order",
    "Pico.Props.c43_digits"
   ],
   "note": "Exact arithmetic; c43_digits justifies the digits used in the specification."
  },
  {
   "property": "C44",
   "status": "partial",
   "theorems": [
    "Pico.Props.c44_nn_partial",
    "Pico.Props.c44_nn_untouched",
    "Pico.Props.c44_knn_range_partial",
    "Pico.Props.c44_knn_partial",
    "Pico.Props.c44_radius",
    "Pico.Props.c44_false"
   ],
   "note": "No algebraic law. c44_false: a distance equal to numeric_limits::max() is not accepted, so the output keeps its old index. Partial theorems: distances below max()."
  },
  {
   "property": "C45",
   "status": "proved",
   "theorems": [
    "Pico.Props.c45_l1",
    "Pico.Props.c45_l2"
   ],
   "note": "Every rounding that is monotone, symmetric, for which twice a scalar and the sign of a difference are exact; ieee p e (round to nearest even with gradual underflow) is one. No overflow."
  },
  {
   "property": "C46",
   "status": "partial",
   "theorems": [
    "Pico.Props.c46_false",
    "Pico.Props.c46_representable",
    "Pico.Props.c46_nn_partial",
    "Pico.Props.c46_knn_partial",
    "Pico.Props.c46_radius_partial",
    "Pico.Props.c46_ieee_partial"
   ],
   "note": "c46_false: a float (24 bit) example in the plane with five points. Partial: error bound (1+u)^(2h)/(1-u)^d for the (k) nearest neighbor(s), and completeness of radius search up to that factor."
  },
  {
   "property": "C47",
   "status": "partial",
   "theorems": [
    "Pico.Props.c47_budget",
    "Pico.Props.c47_sound_partial",
    "Pico.Props.c47_exact",
    "Pico.Props.c47_exact_points",
    "Pico.Props.c47_terminates",
    "Pico.Props.c47_zero",
    "Pico.Props.c47_zero_false"
   ],
   "note": "c47_zero_false: a budget of zero leaves or an empty forest leaves the index of the caller untouched. Otherwise proved in exact arithmetic for arbitrary unit vectors and any conforming std::priority_queue; c47_budget for any arithmetic."
  },
  {
   "property": "C48",
   "status": "proved",
   "theorems": [
    "Pico.Props.c48_nn",
    "Pico.Props.c48_knn",
    "Pico.Props.c48_radius",
    "Pico.Props.c48_nn_approx",
    "Pico.Props.c48_knn_approx",
    "Pico.Props.c48_radius_approx",
    "Pico.Props.c48_l1",
    "Pico.Props.c48_lpinf",
    "Pico.Props.c48_l2",
    "Pico.Props.c48_squared_false"
   ],
   "note": "Exact arithmetic; every tree that the builder produces, whatever leveling, insertion order and std::partition / std::sort. The triangle inequality is a hypothesis, shown for metric_l1, metric_lpinf and metric_l2 (real square root). c48_squared_false: it is needed, metric_l2_squared is accepted and gives wrong answers. The simplified variant of the tree (the one that is compiled) is modelled."
  },
  {
   "property": "C49",
   "status": "proved",
   "theorems": [
    "Pico.Props.c49",
    "Pico.Props.c49_max_distance"
   ],
   "note": "Any arithmetic of distances and levels. Includes that remove_leaf is never called for a leaf and that the node buffers never grow."
  },
  {
   "property": "C50",
   "status": "partial",
   "theorems": [
    "Pico.Props.c50_iff",
    "Pico.Props.c50_partial",
    "Pico.Props.c50_false"
   ],
   "note": "c50_false: with two coinciding points inserted first and a different point later the construction never ends (level minus infinity). c50_iff: exactly then. Levels are integers or minus infinity (exact arithmetic), the base and the logarithms are arbitrary."
  },
  {
   "property": "C51",
   "status": "proved",
   "theorems": [
    "Pico.Props.c51_load_terminates",
    "Pico.Props.c51_load_terminates_dynamic",
    "Pico.Props.c51_load_local"
   ],
   "note": "Termination up to the end of the data. Behind the end the code reads indeterminate values (outcome eof)."
  },
  {
   "property": "C52",
   "status": "proved",
   "theorems": [
    "Pico.Props.c52_segment_r1",
    "Pico.Props.c52_contains_s1",
    "Pico.Props.c52_segment_s1"
   ],
   "note": "Exact arithmetic."
  },
  {
   "property": "C53",
   "status": "proved",
   "theorems": [
    "Pico.Props.c53_contains_r1",
    "Pico.Props.c53_contains_s1"
   ],
   "note": "Exact arithmetic; the argument is a segment_r1, hence min <= max."
  },
  {
   "property": "C54",
   "status": "partial",
   "theorems": [
    "Pico.Props.c54_false",
    "Pico.Props.c54_dimension_partial"
   ],
   "note": "c54_false: a three dimensional tree is accepted by a two dimensional program, the stored dimension is ignored. c54_dimension_partial: with a run time dimension the stored one is used."
  },
  {
   "property": "C55",
   "status": "proved",
   "theorems": [
    "Pico.Props.c55_build",
    "Pico.Props.c55_build_fails",
    "Pico.Props.c55_load"
   ],
   "note": "Any behaviour of operator new that returns unused addresses and does not fail. The three assignments to a branch node are modelled as one."
  },
  {
   "property": "C56",
   "status": "proved",
   "theorems": [
    "Pico.Props.c56_request"
   ],
   "note": ""
  },
  {
   "property": "C57",
   "status": "partial",
   "theorems": [
    "Pico.Props.c57_partial",
    "Pico.Props.c57_false"
   ],
   "note": "c57_false: a contiguous one dimensional array or a zero dimensional array is undefined behaviour. Partial: more than two dimensions and strided one dimensional arrays raise."
  },
  {
   "property": "C58",
   "status": "partial",
   "theorems": [
    "Pico.Props.c58_constructor",
    "Pico.Props.c58_partial",
    "Pico.Props.c58_false"
   ],
   "note": "c58_false: load_kd_tree has no keep_alive, the points of a loaded tree are freed with the last variable. Proved for trees made by the constructor in any program."
  },
  {
   "property": "C59",
   "status": "partial",
   "theorems": [
    "Pico.Props.c59_item",
    "Pico.Props.c59_partial",
    "Pico.Props.c59_item_partial",
    "Pico.Props.c59_iter_false",
    "Pico.Props.c59_reuse_false",
    "Pico.Props.c59_shrink_false"
   ],
   "note": "Witnesses: views from an iteration do not keep the DArray; reuse of a DArray as output moves the elements; shrinking it during an iteration lets the iterator read behind the end. Proved for indexing and for results that fit into the memory of the DArray."
  },
  {
   "property": "C60",
   "status": "proved",
   "theorems": [
    "Pico.Props.c60_knn",
    "Pico.Props.c60_radius",
    "Pico.Props.c60_box"
   ],
   "note": "A call that raises returns no new memory contents in the model; NumPy may have resized a read-only output before."
  },
  {
   "property": "C61",
   "status": "partial",
   "theorems": [
    "Pico.Props.c61_partial",
    "Pico.Props.c61_knn_partial",
    "Pico.Props.c61_count_partial",
    "Pico.Props.c61_false"
   ],
   "note": "c61_false: with two trees the visitor of search_knn lists the same point twice. Proved for one tree; for several trees a point is presented at most once for each tree."
  },
  {
   "property": "C62",
   "status": "proved",
   "theorems": [
    "Pico.Props.c62_isometry",
    "Pico.Props.c62_involution",
    "Pico.Props.c62_normalize",
    "Pico.Props.c62_drawn"
   ],
   "note": "Exact arithmetic (ordered rings; real square root for normalize)."
  },
  {
   "property": "C63",
   "status": "partial",
   "theorems": [
    "Pico.Props.c63_partial",
    "Pico.Props.c63_false"
   ],
   "note": "c63_false: metric_l1 is accepted, the reported distance is the one of the reflected points. c63_partial: for one tree, any metric and any arithmetic it is that distance."
  },
  {
   "property": "C64",
   "status": "proved",
   "theorems": [
    "Pico.Props.c64_nn_approx_so2",
    "Pico.Props.c64_knn_approx_so2",
    "Pico.Props.c64_radius_approx_so2",
    "Pico.Props.c64_visitor_so2",
    "Pico.Props.c64_nn_approx_se2",
    "Pico.Props.c64_knn_approx_se2",
    "Pico.Props.c64_radius_approx_se2",
    "Pico.Props.c64_visitor_se2"
   ],
   "note": "Hypotheses: the build finished, coordinates representable, distances below numeric_limits::max(), query on the circle; exact arithmetic (ordered fields)."
  },
  {
   "property": "C65",
   "status": "proved",
   "theorems": [
    "Pico.Props.c65"
   ],
   "note": "Any base, logarithms, partition and insertion order; symmetric distance."
  },
  {
   "property": "C66",
   "status": "partial",
   "theorems": [
    "Pico.Props.c66_partial",
    "Pico.Props.c66_max_distance_partial",
    "Pico.Props.c66_l2_partial",
    "Pico.Props.c66_false"
   ],
   "note": "c66_false: with base 1.3 (the base that the comments recommend) four points on a line give a root whose level does not cover a point below it. Proved for every base of at least two."
  },
  {
   "property": "C67",
   "status": "partial",
   "theorems": [
    "Pico.Props.c67_partial",
    "Pico.Props.c67_false"
   ],
   "note": "c67_false: with base 1.3 six points on a line give a tree in which a point is not below its nearest child. Proved for every base of at least two."
  },
  {
   "property": "C68",
   "status": "proved",
   "theorems": [
    "Pico.Props.c68_l1",
    "Pico.Props.c68_l2",
    "Pico.Props.c68_ieee"
   ],
   "note": "Median and sliding midpoint rules; rounded arithmetic with gradual underflow, without overflow; the build finished, distances below numeric_limits::max()."
  },
  {
   "property": "C69",
   "status": "proved",
   "theorems": [
    "Pico.Props.c69_l1",
    "Pico.Props.c69_l2",
    "Pico.Props.c69_overflow"
   ],
   "note": "Overflowing operations have an arbitrary value; c69_overflow: a wrong neighbour beyond the bound on a machine that wraps around. Median and sliding midpoint rules; the build finished."
  },
  {
   "property": "C70",
   "status": "proved",
   "theorems": [
    "Pico.Props.c70_so2"
   ],
   "note": "Rounded arithmetic with gradual underflow, without overflow; the build finished, coordinates in [0,1] and representable."
  },
  {
   "property": "C71",
   "status": "proved",
   "theorems": [
    "Pico.Props.c71_se2",
    "Pico.Props.c71_t2"
   ],
   "note": "Median and sliding midpoint rules; rounded arithmetic with gradual underflow, without overflow; the build finished, circle coordinates in [0,1]."
  },
  {
   "property": "C72",
   "status": "partial",
   "theorems": [
    "Pico.Props.c72_median_partial",
    "Pico.Props.c72_sliding_partial",
    "Pico.Props.c72_duplicates",
    "Pico.Props.c72_false"
   ],
   "note": "The code violates the statement: c72_duplicates shows that c coinciding points make every sliding midpoint tree at least c - max_leaf_size levels deep at quadratic cost (any scalar type), c72_false that no constant makes O(n log n) hold. Proved: n (log n + 1) for the median rule, height at most n - max_leaf_size and quadratic work for the sliding midpoint rule. Stop values that fit the index type."
  },
  {
   "property": "C73",
   "status": "proved",
   "theorems": [
    "Pico.Props.c73_big_endian",
    "Pico.Props.c73_all_bytes",
    "Pico.Props.c73_swap",
    "Pico.Props.c73_agree"
   ],
   "note": "std::size_t of 64 bits; two's complement."
  },
  {
   "property": "C74",
   "status": "partial",
   "theorems": [
    "Pico.Props.c74_round_trip_partial",
    "Pico.Props.c74_all_elements",
    "Pico.Props.c74_stale",
    "Pico.Props.c74_false"
   ],
   "note": "The code violates the statement for the empty vector: the file is left as it was (c74_stale, c74_false). Proved for all other vectors. Files that exist can be opened."
  },
  {
   "property": "C75",
   "status": "partial",
   "theorems": [
    "Pico.Props.c75_images_partial",
    "Pico.Props.c75_labels_partial",
    "Pico.Props.c75_shapes",
    "Pico.Props.c75_accepts",
    "Pico.Props.c75_undefined",
    "Pico.Props.c75_magic",
    "Pico.Props.c75_false",
    "Pico.Props.c75_overflow",
    "Pico.Props.c75_short"
   ],
   "note": "The code violates the statement: only the product of width and height is compared (c75_false), computed with int (c75_overflow: undefined behaviour), and short files give black images (c75_short). Proved: files of the format are read as written; exactly which files with a complete header are accepted, and for which the behaviour is undefined; another magic number is rejected."
  },
  {
   "property": "C76",
   "status": "partial",
   "theorems": [
    "Pico.Props.c76_name",
    "Pico.Props.c76_read_partial",
    "Pico.Props.c76_accepts_everything",
    "Pico.Props.c76_false"
   ],
   "note": "The code violates the statement: the dimension stored before each vector is ignored (c76_accepts_everything, c76_false). Proved: files of the right dimension are read as written; the check of the name. File names below 2^63 characters, classic locale."
  },
  {
   "property": "C77",
   "status": "proved",
   "theorems": [
    "Pico.Props.c77_euler",
    "Pico.Props.c77_isometry",
    "Pico.Props.c77_orientation",
    "Pico.Props.c77_real"
   ],
   "note": "Exact arithmetic (commutative ring); sines and cosines with s^2 + c^2 = 1, in particular real angles. Reading of the pose file is not modelled."
  },
  {
   "property": "C78",
   "status": "partial",
   "theorems": [
    "Pico.Props.c78_line_partial",
    "Pico.Props.c78_two",
    "Pico.Props.c78_blank",
    "Pico.Props.c78_lines",
    "Pico.Props.c78_points",
    "Pico.Props.c78_false"
   ],
   "note": "The code violates the statement: a line with two numbers repeats the second (c78_two), a blank line gives a point (c78_blank). Proved: lines with three words, order and number of points. strtod is arbitrary; the order of directory entries is given."
  },
  {
   "property": "C79",
   "status": "proved",
   "theorems": [
    "Pico.Props.c79_visitor",
    "Pico.Props.c79_box",
    "Pico.Props.c79_build",
    "Pico.Props.c79_answers",
    "Pico.Props.c79_later"
   ],
   "note": "std::partition and std::nth_element apply the predicate and the comparator to elements of the range only (Std.Local)."
  },
  {
   "property": "C80",
   "status": "partial",
   "theorems": [
    "Pico.Props.c80_accepts",
    "Pico.Props.c80_outside",
    "Pico.Props.c80_same_partial",
    "Pico.Props.c80_false"
   ],
   "note": "The code violates the statement: the size of the space is not compared (c80_accepts), and with a smaller space every tree refers to points behind its end (c80_outside, c80_false). Proved for spaces of at least the saved number of points."
  },
  {
   "property": "C81",
   "status": "partial",
   "theorems": [
    "Pico.Props.c81_nn",
    "Pico.Props.c81_knn",
    "Pico.Props.c81_radius",
    "Pico.Props.c81_metrics",
    "Pico.Props.c81_nn_partial",
    "Pico.Props.c81_knn_partial",
    "Pico.Props.c81_radius_partial",
    "Pico.Props.c81_false"
   ],
   "note": "The code violates the statement: box searches report NaN points, metric_lpinf ignores NaN, and with the median rule a valid nearest neighbor is missed (c81_false). Proved for every tree: the nearest, k nearest and radius searches with the metrics that add over all coordinates never report a NaN point or a NaN distance; c81_nn, c81_knn, c81_radius hold for scalars without any order law."
  },
  {
   "property": "C82",
   "status": "partial",
   "theorems": [
    "Pico.Props.c82_query_partial",
    "Pico.Props.c82_radius_partial",
    "Pico.Props.c82_false"
   ],
   "note": "The code violates the statement for boxes: a box of NaN contains everything, and with NaN in one dimension the answer depends on max_leaf_size (c82_false). Proved for nearest, k nearest and radius searches on every tree with the metrics that add over all coordinates, and for a NaN radius."
  },
  {
   "property": "C83",
   "status": "partial",
   "theorems": [
    "Pico.Props.c83_partition_partial",
    "Pico.Props.c83_build_partial",
    "Pico.Props.c83_box_partial",
    "Pico.Props.c83_box_topological_partial",
    "Pico.Props.c83_false",
    "Pico.Props.c83_false_case",
    "Pico.Props.c83_inf_false"
   ],
   "note": "The code violates the statement for the midpoint rule: a side that overflows makes the recursion endless whatever the fuel (c83_false), and points all at infinity lead to undefined behaviour (c83_inf_false). Proved for the median and sliding midpoint rules: the tree partitions the points and box searches are exact for every input without NaN; the construction finishes when one axis has finite coordinates."
  },
  {
   "property": "C84",
   "status": "partial",
   "theorems": [
    "Pico.Props.c84_partial",
    "Pico.Props.c84_one_dim_partial",
    "Pico.Props.c84_error_partial",
    "Pico.Props.c84_false"
   ],
   "note": "The code violates the statement for coordinates above half of the largest number: left_max + right_min overflows, the wrong child is visited first and the nearest neighbor is missed (c84_false). Proved for coordinates up to half of the largest number and any finite query: construction and searches are the images of those without overflow (c84_partial); so they are exact in one dimension (c84_one_dim_partial) and satisfy the error bound of C46 in any (c84_error_partial)."
  },
  {
   "property": "C85",
   "status": "proved",
   "theorems": [
    "Pico.Props.c85_nn",
    "Pico.Props.c85_knn",
    "Pico.Props.c85_radius",
    "Pico.Props.c85_ieee"
   ],
   "note": "Both metrics satisfy the structure SquareSum the theorems assume (squareSum_se2, squareSum_t2)."
  },
  {
   "property": "C86",
   "status": "proved",
   "theorems": [
    "Pico.Props.c86_l1",
    "Pico.Props.c86_l2",
    "Pico.Props.c86_ieee"
   ],
   "note": "The absence of underflow is a hypothesis of the statement: differences are zero or their squares are in the normal range. TrueUpTo speaks of Spec.l1 and Spec.l2Sq of the exact coordinates only."
  },
  {
   "property": "C87",
   "status": "partial",
   "theorems": [
    "Pico.Props.c87_space_partial",
    "Pico.Props.c87_owned",
    "Pico.Props.c87_point_partial",
    "Pico.Props.c87_block_partial",
    "Pico.Props.c87_space_false",
    "Pico.Props.c87_point_false",
    "Pico.Props.c87_block_false"
   ],
   "note": "The code violates the statement: data() is read without regard to innerStride(). Maps with an inner stride (c87_space_false: wrong nearest neighbor), strided vectors (c87_point_false) and columns of row major matrices (c87_block_false) compile and are read wrongly. Proved for inner stride one, in particular for every matrix that owns its memory (c87_owned)."
  },
  {
   "property": "C88",
   "status": "proved",
   "theorems": [
    "Pico.Props.c88_point",
    "Pico.Props.c88_space"
   ],
   "note": ""
  },
  {
   "property": "C89",
   "status": "proved",
   "theorems": [
    "Pico.Props.c89_result",
    "Pico.Props.c89_count",
    "Pico.Props.c89_lower"
   ],
   "note": ""
  },
  {
   "property": "C90",
   "status": "proved",
   "theorems": [
    "Pico.Props.c90_l1",
    "Pico.Props.c90_l2",
    "Pico.Props.c90_lpinf",
    "Pico.Props.c90_lninf",
    "Pico.Props.c90_topological",
    "Pico.Props.c90_l2_other"
   ],
   "note": "c90_l2_other: with metric_l2_squared another point at computed distance zero can be found, since squares underflow."
  },
  {
   "property": "C91",
   "status": "proved",
   "theorems": [
    "Pico.Props.c91_one_range",
    "Pico.Props.c91_one",
    "Pico.Props.c91_ratio_one",
    "Pico.Props.c91_ratio_float",
    "Pico.Props.c91_radius",
    "Pico.Props.c91_euclidean",
    "Pico.Props.c91_topological",
    "Pico.Props.c91_one_dim",
    "Pico.Props.c91_rounding"
   ],
   "note": "c91_rounding: with rounding in the plane search_nn and the first of search_knn can disagree, so the last part needs exact arithmetic."
  },
  {
   "property": "C92",
   "status": "proved",
   "theorems": [
    "Pico.Props.c92_euclidean",
    "Pico.Props.c92_topological",
    "Pico.Props.c92_ratio",
    "Pico.Props.c92_ieee"
   ],
   "note": "1 is representable; c92_ratio, c92_ieee: the scaled distances do not underflow."
  },
  {
   "property": "C93",
   "status": "partial",
   "theorems": [
    "Pico.Props.c93_partial",
    "Pico.Props.c93_depth_partial",
    "Pico.Props.c93_narrow",
    "Pico.Props.c93_false",
    "Pico.Props.c93_wrap"
   ],
   "note": "False (c93_false): std::iota is called with the int literal 0, so 2^31 points are undefined behaviour for every index type, 64 bits included. False for types narrower than int (c93_narrow): with 2^(w-1) points the end of the last leaf wraps. Proved for n < 2^31 and n < 2^(w-1)."
  },
  {
   "property": "C94",
   "status": "partial",
   "theorems": [
    "Pico.Props.c94_partial",
    "Pico.Props.c94_l1_partial",
    "Pico.Props.c94_l2_partial",
    "Pico.Props.c94_false"
   ],
   "note": "False (c94_false): with float coordinates the returned point can be ten million times as far as the nearest one. Proved: all six searches lose at most a summand s that bounds the excess of the computed lower bounds (c94_partial); for metric_l1 and metric_l2 s is (2 (((1+u)/(1-u))^k - 1) + u) times the largest computed distance, with u the relative error of one operation."
  },
  {
   "property": "C95",
   "status": "partial",
   "theorems": [
    "Pico.Props.c95_partial",
    "Pico.Props.c95_topological_partial",
    "Pico.Props.c95_nothing",
    "Pico.Props.c95_infinite",
    "Pico.Props.c95_false",
    "Pico.Props.c95_infinite_false"
   ],
   "note": "Proved for ratios between zero and one in exact arithmetic, all three searches, Euclidean and topological. False otherwise (c95_false): the ratio is not checked, -1 gives the farthest point with a negative distance, and zero and NaN find nothing on any tree (c95_nothing). With an infinite ratio all distances are zero (c95_infinite, c95_infinite_false)."
  },
  {
   "property": "C96",
   "status": "partial",
   "theorems": [
    "Pico.Props.c96_partial",
    "Pico.Props.c96_float_partial",
    "Pico.Props.c96_computed_partial",
    "Pico.Props.c96_normalize",
    "Pico.Props.c96_false"
   ],
   "note": "False as stated (c96_false): the rotation is about the origin, so its rounding error grows with the distance of the points from the origin; far from the origin a query that is a stored point gets a different point with distance zero. Proved instead: the computed distance on the rotated points is minimal up to (1+u)^(2 height) / (1-u)^d, no visited point is closer, and the true distance exceeds the smallest one by a relative error plus a multiple of the distance X from the origin; for float (1 + 1/500) a + X / 2000. normalize gives unit vectors up to rounding if nothing underflows."
  },
  {
   "property": "C97",
   "status": "proved",
   "theorems": [
    "Pico.Props.c97_l1",
    "Pico.Props.c97_l2",
    "Pico.Props.c97_ieee",
    "Pico.Props.c97_float",
    "Pico.Props.c97_limit"
   ],
   "note": "Median and sliding midpoint rules; rounded arithmetic with gradual underflow, without overflow; the build finished, computed distances below numeric_limits::max(). c97_limit: beyond the limit the nearest neighbor can be missed."
  },
  {
   "property": "C98",
   "status": "partial",
   "theorems": [
    "Pico.Props.c98_partial",
    "Pico.Props.c98_one_partial",
    "Pico.Props.c98_stale",
    "Pico.Props.c98_second_run",
    "Pico.Props.c98_rerun_false",
    "Pico.Props.c98_false"
   ],
   "note": "False with ties (c98_false: indices are compared, so another nearest point counts as a miss) and with a file of an earlier run (c98_stale: more answers than queries read behind the end of the test set). Without a file and in exact arithmetic: what is counted is right, with unique nearest points the count is exact, with a sufficient budget the precision is one. The file is not compared with the training set."
  },
  {
   "property": "C99",
   "status": "partial",
   "theorems": [
    "Pico.Props.c99_box_partial",
    "Pico.Props.c99_box_false",
    "Pico.Props.c99_box_tree",
    "Pico.Props.c99_radius_partial",
    "Pico.Props.c99_radius_right",
    "Pico.Props.c99_radius_tree",
    "Pico.Props.c99_radius_false",
    "Pico.Props.c99_reference",
    "Pico.Props.c99_reference_false",
    "Pico.Props.c99_knn_partial",
    "Pico.Props.c99_knn_false",
    "Pico.Props.c99_box_outside",
    "Pico.Props.c99_radius_outside",
    "Pico.Props.c99_knn_short_false",
    "Pico.Props.c99_knn_right",
    "Pico.Props.c99_knn_tree"
   ],
   "note": "False: duplicates pass test_box and test_radius, indices are not looked at in test_knn, and test_radius counts points at distance equal to the radius, which search_radius rightly leaves out. Proved: the helpers are right for results without duplicates and with genuine distances; the tree passes test_box and test_knn always and test_radius exactly if no point is at the distance radius; the brute force reference is right for k > 0 and undefined for k = 0."
  },
  {
   "property": "C100",
   "status": "proved",
   "theorems": [
    "Pico.Props.c100_answer",
    "Pico.Props.c100_euclidean",
    "Pico.Props.c100_topological"
   ],
   "note": "Exact arithmetic; the same build, the distances below numeric_limits::max() for k > 1. Points looked at: those shown to the visitor."
  },
  {
   "property": "C101",
   "status": "partial",
   "theorems": [
    "Pico.Props.c101_false",
    "Pico.Props.c100_euclidean",
    "Pico.Props.c100_topological"
   ],
   "note": "False: c101_false has seven points where the ratio 2 looks at two points and the ratio 3 at three, two of them others, and finds a better answer. Proved in C100: every ratio of at least one looks at a part of what the exact search looks at, and for radius searches a larger ratio looks at a part of what the smaller one looks at."
  },
  {
   "property": "C102",
   "status": "proved",
   "theorems": [
    "Pico.Props.c102_opened",
    "Pico.Props.c102_reached",
    "Pico.Props.c102_radius",
    "Pico.Props.c102_nn"
   ],
   "note": "Exact arithmetic, Euclidean metrics that add over the axes. The upper bound for trees without empty leaves (median and sliding midpoint rules, C20)."
  },
  {
   "property": "C103",
   "status": "partial",
   "theorems": [
    "Pico.Props.c103_partial",
    "Pico.Props.c103_nn_partial",
    "Pico.Props.c103_knn_partial",
    "Pico.Props.c103_radius_partial",
    "Pico.Props.c103_root_partial",
    "Pico.Props.c103_false",
    "Pico.Props.c103_levels_false",
    "Pico.Props.c103_covers_false",
    "Pico.Props.c103_apart_false"
   ],
   "note": "Proved for every build that finishes: all points are there once, the recorded distances are right and the searches exact, for all levelings and distances. False: a build can call remove_leaf for a leaf (undefined behaviour), and no invariant holds, already with base two; witnesses."
  },
  {
   "property": "C104",
   "status": "proved",
   "theorems": [
    "Pico.Props.c104",
    "Pico.Props.c104_leaf"
   ],
   "note": ""
  },
  {
   "property": "C105",
   "status": "partial",
   "theorems": [
    "Pico.Props.c105_line_partial",
    "Pico.Props.c105_line_count_partial",
    "Pico.Props.c105_topological_false",
    "Pico.Props.c105_all_false",
    "Pico.Props.c105_false"
   ],
   "note": "Proved for one dimension and Euclidean metrics: at most two leaves are read. False for topological metrics (every search with min <= max reads every point it does not report) and in the plane (n points read, none reported, for the median and sliding midpoint rules)."
  },
  {
   "property": "C106",
   "status": "proved",
   "theorems": [
    "Pico.Props.c106_tree_euclidean",
    "Pico.Props.c106_tree_topological",
    "Pico.Props.c106_search",
    "Pico.Props.c106_l1",
    "Pico.Props.c106_l2",
    "Pico.Props.c106_approx",
    "Pico.Props.c106_approx_l2",
    "Pico.Props.c106_box",
    "Pico.Props.c106_se2",
    "Pico.Props.c106_reflect_false",
    "Pico.Props.c106_int_false"
   ],
   "note": "The limits: reflections (factor -1) change which one of two equally near points is returned, and the truncating halving of integers changes the leaves if the unit changes."
  },
  {
   "property": "C107",
   "status": "partial",
   "theorems": [
    "Pico.Props.c107_names",
    "Pico.Props.c107_scans",
    "Pico.Props.c107_pose_name",
    "Pico.Props.c107_replace",
    "Pico.Props.c107_partial",
    "Pico.Props.c107_missing",
    "Pico.Props.c107_order",
    "Pico.Props.c107_exits",
    "Pico.Props.c107_pose_partial",
    "Pico.Props.c107_pose_short",
    "Pico.Props.c107_pose_word",
    "Pico.Props.c107_names_false",
    "Pico.Props.c107_dir_false",
    "Pico.Props.c107_pose_false"
   ],
   "note": "Violated: the dot of the pattern is not escaped, so scan000_3d is read as well; a pose with fewer than six numbers is read from uninitialised variables; a word in place of the sixth number counts as a number."
  },
  {
   "property": "C108",
   "status": "partial",
   "theorems": [
    "Pico.Props.c108_digits",
    "Pico.Props.c108_float",
    "Pico.Props.c108_float_file",
    "Pico.Props.c108_file",
    "Pico.Props.c108_injective_partial",
    "Pico.Props.c108_programs_partial",
    "Pico.Props.c108_no_points",
    "Pico.Props.c108_double_false",
    "Pico.Props.c108_empty",
    "Pico.Props.c108_stale"
   ],
   "note": "Violated: ten digits do not tell doubles apart; an empty vector leaves the old file; the programs keep files that are there already. Proved for float and for a directory without these files."
  },
  {
   "property": "C109",
   "status": "proved",
   "theorems": [
    "Pico.Props.c109_nodes",
    "Pico.Props.c109_leaves",
    "Pico.Props.c109_build",
    "Pico.Props.c109_load",
    "Pico.Props.c109_bytes",
    "Pico.Props.c109_float",
    "Pico.Props.c109_double"
   ],
   "note": "Stop values that fit the index type; for the bytes, values that fit the types they are saved with."
  },
  {
   "property": "C110",
   "status": "partial",
   "theorems": [
    "Pico.Props.c110_segments",
    "Pico.Props.c110_distances",
    "Pico.Props.c110_metrics",
    "Pico.Props.c110_box",
    "Pico.Props.c110_splitter_median",
    "Pico.Props.c110_splitter_midpoint",
    "Pico.Props.c110_splitter_sliding",
    "Pico.Props.c110_leaf_ranges_partial",
    "Pico.Props.c110_leaf_ranges_false",
    "Pico.Props.c110_python_creation",
    "Pico.Props.c110_python_search",
    "Pico.Props.c110_comparisons",
    "Pico.Props.c110_ordinal_neg",
    "Pico.Props.c110_so2_box",
    "Pico.Props.c110_so2_knn"
   ],
   "note": "All but the number of ranges in KdTreeTest.LeafRanges, which is smaller if a leaf of one point comes early. The random Euclidean tests are C99. Square root and pow are assumed right on the inputs used."
  },
  {
   "property": "C111",
   "status": "partial",
   "theorems": [
    "Pico.Props.c111_tree_partial",
    "Pico.Props.c111_search_partial",
    "Pico.Props.c111_l1_partial",
    "Pico.Props.c111_l2_partial",
    "Pico.Props.c111_float_l1_partial",
    "Pico.Props.c111_float_l2_partial",
    "Pico.Props.c111_false",
    "Pico.Props.c111_tree_false"
   ],
   "note": "Proved without underflow for all powers of two, rules and both metrics; with gradual underflow (float, double) for scaling up, the median rule, and squares that are zero or normal numbers. False in general: squares underflow to zero, and half of the smallest number is rounded."
  },
  {
   "property": "C112",
   "status": "partial",
   "theorems": [
    "Pico.Props.c112_saved_partial",
    "Pico.Props.c112_loaded_partial",
    "Pico.Props.c112_loaded_dynamic_partial",
    "Pico.Props.c112_file_partial",
    "Pico.Props.c112_missing_partial",
    "Pico.Props.c112_cut",
    "Pico.Props.c112_cut_dynamic",
    "Pico.Props.c112_python",
    "Pico.Props.c112_silent_false",
    "Pico.Props.c112_false",
    "Pico.Props.c112_answer_false"
   ],
   "note": "Reported is only a file that cannot be opened, and in Python a cut within the header. False otherwise (c112_false: for every tree). Proved: a caller who passes their own stream and looks at its state afterwards is safe in both directions; a file always holds a prefix of what it should; a cut of more than the last leaf never gives a tree (it is undefined behaviour), a smaller one gives the tree with an arbitrary range in its last leaf."
  },
  {
   "property": "C113",
   "status": "proved",
   "theorems": [
    "Pico.Props.c113_build_throws",
    "Pico.Props.c113_build",
    "Pico.Props.c113_build_same",
    "Pico.Props.c113_build_enough",
    "Pico.Props.c113_build_calls",
    "Pico.Props.c113_build_none",
    "Pico.Props.c113_load_throws",
    "Pico.Props.c113_load",
    "Pico.Props.c113_load_enough",
    "Pico.Props.c113_load_calls",
    "Pico.Props.c113_others"
   ],
   "note": "Any call of new may fail. Also counts the calls. For a dimension that is read from the stream, the stored dimension is taken to be the one of the model type."
  },
  {
   "property": "C114",
   "status": "partial",
   "theorems": [
    "Pico.Props.c114_euclidean",
    "Pico.Props.c114_topological",
    "Pico.Props.c114_l2",
    "Pico.Props.c114_axes",
    "Pico.Props.c114_turn",
    "Pico.Props.c114_se2",
    "Pico.Props.c114_box",
    "Pico.Props.c114_arc_partial",
    "Pico.Props.c114_arc_false",
    "Pico.Props.c114_lpinf_false"
   ],
   "note": "Proved but for box search on the circle, where it fails if a coordinate is 1: 0 and 1 are the same angle for the distance but not for the box (c114_arc_false). Also fails for metric_lpinf, whose searches are not exact (c114_lpinf_false)."
  },
  {
   "property": "C115",
   "status": "partial",
   "theorems": [
    "Pico.Props.c115_make",
    "Pico.Props.c115_loads_partial",
    "Pico.Props.c115_euclidean_partial",
    "Pico.Props.c115_topological_partial",
    "Pico.Props.c115_search_partial",
    "Pico.Props.c115_leaf_partial",
    "Pico.Props.c115_false"
   ],
   "note": "Proved but for the last sentence: the file of a tree for a topological metric is accepted as one for a Euclidean metric, with leaves that have no meaning (c115_false)."
  },
  {
   "property": "C116",
   "status": "partial",
   "theorems": [
    "Pico.Props.c116_trace",
    "Pico.Props.c116_line_partial",
    "Pico.Props.c116_median_partial",
    "Pico.Props.c116_equal",
    "Pico.Props.c116_equal_all",
    "Pico.Props.c116_sliding_false",
    "Pico.Props.c116_false",
    "Pico.Props.c116_beside",
    "Pico.Props.c116_plane_false"
   ],
   "note": "The second sentence is proved for every tree and visitor (c116_trace). The bound on time is false: distinct points on a line make the sliding midpoint tree a chain (c116_sliding_false), equal points are all looked at with every rule and ratio (c116_false). Proved instead: on a line with distinct points at most 2k+1 leaves are opened, so that the bound holds with the median rule (c116_line_partial, c116_median_partial). In more than one dimension it is false for distinct points and balanced trees, too: a query beside points on a line parallel to an axis looks at all of them (c116_beside for every rule, c116_plane_false)."
  },
  {
   "property": "C117",
   "status": "partial",
   "theorems": [
    "Pico.Props.c117_radius",
    "Pico.Props.c117_knn",
    "Pico.Props.c117_box",
    "Pico.Props.c117_performed",
    "Pico.Props.c117_performed_knn",
    "Pico.Props.c117_performed_box",
    "Pico.Props.c117_ratio_ignored",
    "Pico.Props.c117_ratio_false",
    "Pico.Props.c117_errors",
    "Pico.Props.c117_none"
   ],
   "note": "Proved for floats, integers, bools, arrays and DArrays of the documented kinds in every position and order; for arbitrary objects, what is performed uses all of the objects given, unconverted except for sort. False for search_radius(pts, radius, e) with a ratio that is not a Python float (an int, a numpy.float32): the overload with sort takes it by its truth value and searches exactly (c117_ratio_false); this is the only way to lose a ratio (c117_ratio_ignored). None is an error everywhere (c117_none)."
  },
  {
   "property": "C118",
   "status": "partial",
   "theorems": [
    "Pico.Props.c118_same_partial",
    "Pico.Props.c118_partial",
    "Pico.Props.c118_range",
    "Pico.Props.c118_overflow_false",
    "Pico.Props.c118_false",
    "Pico.Props.c118_example"
   ],
   "note": "Proved when the number of results of all queries is below 2^64, and for integers that do not fit into a size_t (they raise). False otherwise: query.size() * k wraps around, so that with two query points and k = 2^63 the output stays empty and the results are written behind its end."
  },
  {
   "property": "C119",
   "status": "partial",
   "theorems": [
    "Pico.Props.c119_make",
    "Pico.Props.c119_load",
    "Pico.Props.c119_attributes",
    "Pico.Props.c119_metric",
    "Pico.Props.c119_dtype",
    "Pico.Props.c119_errors",
    "Pico.Props.c119_knn_partial",
    "Pico.Props.c119_radius_partial",
    "Pico.Props.c119_box",
    "Pico.Props.c119_lpinf_false",
    "Pico.Props.c119_more_false"
   ],
   "note": "Boxes, attributes, construction, saving and loading: proved. Nearest neighbors and radius: proved for Metric.L1 and Metric.L2Squared, for Metric.LPInf on a line, and for k up to the number of points. False for Metric.LPInf in the plane (wrong nearest neighbor) and for k above the number of points (entries that are no points). Scalars are those of an ordered field."
  },
  {
   "property": "C120",
   "status": "partial",
   "theorems": [
    "Pico.Props.c120_refused_iff",
    "Pico.Props.c120_never_refused_false",
    "Pico.Props.c120_false"
   ],
   "note": "False: the scalar type is not part of the file. Proved is what load_kd_tree does refuse: for a float array of points exactly the files whose header is not accepted. No saved file is ever refused, and the file of one double (1.0000000000000002) is loaded as a tree of one float whose leaf ends at 20967424."
  },
  {
   "property": "C121",
   "status": "partial",
   "theorems": [
    "Pico.Props.holds_vector",
    "Pico.Props.holds_map",
    "Pico.Props.computes_l1",
    "Pico.Props.computes_l2",
    "Pico.Props.computes_lpinf",
    "Pico.Props.computes_lninf",
    "Pico.Props.computes_so2",
    "Pico.Props.computes_se2",
    "Pico.Props.c121_nearest_euclidean",
    "Pico.Props.c121_nearest_topological",
    "Pico.Props.c121_box_euclidean",
    "Pico.Props.c121_box_topological",
    "Pico.Props.c121_bounds",
    "Pico.Props.c121_compiles",
    "Pico.Props.c121_rejected_partial",
    "Pico.Props.c121_bounds_false",
    "Pico.Props.c121_long_false",
    "Pico.Props.c121_short_false",
    "Pico.Props.c121_leaf_false",
    "Pico.Props.c121_se2_false",
    "Pico.Props.c121_dynamic_false",
    "Pico.Props.c121_box_false"
   ],
   "note": "The half on reads is proved: with the right number of coordinates the searches with checked reads are never undefined and equal those over abstract points. The half on rejection is false: only search_nearest has a static_assert, which only compares two dimensions known at compile time (c121_rejected_partial). search_box and bounds_t check nothing, run time dimensions are never compared; what then happens is c121_*_false."
  },
  {
   "property": "C122",
   "status": "partial",
   "theorems": [
    "Pico.Props.computes_so2At",
    "Pico.Props.computes_se2At",
    "Pico.Props.c122_so2_partial",
    "Pico.Props.c122_se2_partial",
    "Pico.Props.c122_so2_false",
    "Pico.Props.c122_se2_false",
    "Pico.Props.c122_se2_short_false"
   ],
   "note": "False: nothing compares the dimension of the points with the metric. With a dimension too many both metrics measure a part of the coordinates only while the tree is pruned along all, so that the nearest neighbor is missed; metric_se2_squared with less than three coordinates reads behind every point. Proved for the right dimension."
  },
  {
   "property": "C123",
   "status": "proved",
   "theorems": [
    "Pico.Props.c123_visitor",
    "Pico.Props.c123_unmoved_line",
    "Pico.Props.c123_unmoved_top",
    "Pico.Props.c123_leaf_line",
    "Pico.Props.c123_leaf_top",
    "Pico.Props.c123_root",
    "Pico.Props.c123_nn_line",
    "Pico.Props.c123_knn_line",
    "Pico.Props.c123_radius_line",
    "Pico.Props.c123_nn_top",
    "Pico.Props.c123_knn_top",
    "Pico.Props.c123_radius_top",
    "Pico.Props.c123_box_line",
    "Pico.Props.c123_box_top",
    "Pico.Props.c123_false"
   ],
   "note": "c123_false is the last sentence: a witness that the condition is needed. line are the Euclidean, top the topological trees; the condition is StaysLine, StaysTop, and StaysInLeaf the one on the boxes of the leaves."
  },
  {
   "property": "C124",
   "status": "partial",
   "theorems": [
    "Pico.Props.c124_exact_partial",
    "Pico.Props.c124_space_partial",
    "Pico.Props.c124_rounding_partial",
    "Pico.Props.c124_ieee_partial",
    "Pico.Props.c124_int_partial",
    "Pico.Props.c124_stuck",
    "Pico.Props.c124_int_false",
    "Pico.Props.c124_float_false"
   ],
   "note": "False in rounded arithmetic: if the midpoint of a cell is rounded to its lower side, the sliding midpoint rule takes the points on that side away one at a time although they differ (c124_stuck). c124_int_false: the corners of the unit cube with int coordinates; c124_float_false: a sliver of float points with n - 2 levels. Proved: exact arithmetic (any start box, and the bounds of the points), rounding errors that are small compared to s (at most 4 p d levels for float and double), integers that differ by at least 2."
  },
  {
   "property": "C125",
   "status": "partial",
   "theorems": [
    "Pico.Props.c125_point_partial",
    "Pico.Props.c125_pointer_partial",
    "Pico.Props.c125_range_partial",
    "Pico.Props.c125_space_partial",
    "Pico.Props.c125_space_static_partial",
    "Pico.Props.c125_points",
    "Pico.Props.c125_coord",
    "Pico.Props.c125_mat",
    "Pico.Props.c125_range_false",
    "Pico.Props.c125_static_false",
    "Pico.Props.c125_pointer_false",
    "Pico.Props.c125_space_false",
    "Pico.Props.c125_mat_false"
   ],
   "note": "False: two iterators of an empty container dereference the end (c125_range_false), a size other than the one known at compile time is ignored (c125_static_false), without a size or dimension the largest size_t is used (c125_pointer_false, c125_space_false), and a cv::Mat of another type is read at the wrong places (c125_mat_false). Proved for the right sizes, for all memories around the view."
  },
  {
   "property": "C126",
   "status": "proved",
   "theorems": [
    "Pico.Props.c126_order",
    "Pico.Props.c126_nn",
    "Pico.Props.c126_radius"
   ],
   "note": "Exact arithmetic, any metric that adds up contributions of the axes, any rotations. c126_order holds for every conforming queue; the comparisons need a queue that breaks ties in a fixed way (StdQueue.Ordered), as std::greater on pairs with a pointer does; for forests of different sizes the same way in both."
  },
  {
   "property": "C127",
   "status": "partial",
   "theorems": [
    "Pico.Props.c127_contains",
    "Pico.Props.c127_contains_box",
    "Pico.Props.c127_max_side",
    "Pico.Props.c127_fill_partial",
    "Pico.Props.c127_fit_partial",
    "Pico.Props.c127_fit_box_partial",
    "Pico.Props.c127_fit_order_partial",
    "Pico.Props.c127_fit_contains_partial",
    "Pico.Props.c127_dynamic_partial",
    "Pico.Props.c127_make_partial",
    "Pico.Props.c127_make_static",
    "Pico.Props.c127_moved_static",
    "Pico.Props.c127_view",
    "Pico.Props.c127_pointers_false",
    "Pico.Props.c127_alias_false",
    "Pico.Props.c127_same_false",
    "Pico.Props.c127_default_false",
    "Pico.Props.c127_wrap_false",
    "Pico.Props.c127_moved_false"
   ],
   "note": "False: a point that begins before an end of the box and reaches into it is overwritten while it is read (c127_alias_false), a view may have both ends in the same memory (c127_same_false), the default constructor of a box of run time size always throws (c127_default_false), size * 2 overflows (c127_wrap_false), a view made from two pointers only may have 2^64 - 1 coordinates (c127_pointers_false), and a moved-from box keeps its size without coordinates (c127_moved_false). Proved for ends that do not overlap and any other position of the point, and for sizes that fit."
  },
  {
   "property": "C128",
   "status": "partial",
   "theorems": [
    "Pico.Props.c128_defined_partial",
    "Pico.Props.c128_holds_partial",
    "Pico.Props.c128_freed_partial",
    "Pico.Props.c128_lost",
    "Pico.Props.c128_assign_moved",
    "Pico.Props.c128_swap",
    "Pico.Props.c128_assign_false",
    "Pico.Props.c128_source_false",
    "Pico.Props.c128_dangling_false",
    "Pico.Props.c128_self_false"
   ],
   "note": "False: assignment to an object that holds a tree loses all its chunks (c128_assign_false), the source of a move keeps its pointer to the nodes but has no indices (c128_source_false), the pointer dangles once the new object is destroyed (c128_dangling_false), and a tree assigned to itself is lost (c128_self_false). Proved for all programs that do not read a moved-from object and do not assign a tree to itself: every object that holds a tree is read as that tree, nothing is undefined, exactly the lost chunks are left in the end; std::swap is safe, also with itself."
  },
  {
   "property": "C129",
   "status": "partial",
   "theorems": [
    "Pico.Props.c129_nearest",
    "Pico.Props.c129_box",
    "Pico.Props.c129_save",
    "Pico.Props.c129_leaf_ranges_partial",
    "Pico.Props.c129_any_memory",
    "Pico.Props.c129_nearest_euclidean",
    "Pico.Props.c129_nearest_topological",
    "Pico.Props.c129_box_euclidean",
    "Pico.Props.c129_box_topological",
    "Pico.Props.c129_answers_euclidean",
    "Pico.Props.c129_answers_topological",
    "Pico.Props.c129_empty_leaf_false",
    "Pico.Props.c129_source_false",
    "Pico.Props.c129_dangling_false"
   ],
   "note": "Proved for all objects that hold a tree, after any program of builds, loads, moves and destructions: the functions on pointers equal those on trees, and for trees that were built they return the true answers. False: leaf_ranges of a tree with an empty leaf dereferences a null pointer (c129_empty_leaf_false); the source of a move is undefined for every nearest search and leaf_ranges (c129_source_false), and for everything once the new object is destroyed (c129_dangling_false)."
  },
  {
   "property": "C130",
   "status": "proved",
   "theorems": [
    "Pico.Props.c130_build",
    "Pico.Props.c130_others",
    "Pico.Props.c130_destroy",
    "Pico.Props.c130_move",
    "Pico.Props.c130_search",
    "Pico.Props.c130_nn",
    "Pico.Props.c130_radius",
    "Pico.Props.c130_full_false",
    "Pico.Props.c130_loop_false",
    "Pico.Props.c130_source_false"
   ],
   "note": "Proved for the variant of the code that is compiled (SIMPLIFIED_NEAREST_ANCESTOR_COVER_TREE), for all runs of the construction that finish (C50 says which do). About the limits: a full buffer that allocates leaves all pointers dangling (c130_full_false), so the room reserved is needed; the source of a move keeps a pointer that dangles once the new object is gone (c130_source_false)."
  },
  {
   "property": "C131",
   "status": "proved",
   "theorems": [
    "Pico.Props.c131_height",
    "Pico.Props.c131_depth",
    "Pico.Props.c131_degree",
    "Pico.Props.c131_degree_l1",
    "Pico.Props.c131_degree_lpinf",
    "Pico.Props.c131_degree_l2",
    "Pico.Props.c131_nn"
   ],
   "note": "Proved for bases of at least two, with exact arithmetic and exact logarithms (for base 1.3 C66 is false and nothing is claimed). The height is in terms of the smallest distance, so it needs distinct points."
  },
  {
   "property": "C132",
   "status": "proved",
   "theorems": [
    "Pico.Props.c132_type",
    "Pico.Props.c132_new",
    "Pico.Props.c132_search",
    "Pico.Props.c132_output",
    "Pico.Props.c132_slice",
    "Pico.Props.c132_item",
    "Pico.Props.c132_iter",
    "Pico.Props.c132_view",
    "Pico.Props.c132_reuse",
    "Pico.Props.c132_write",
    "Pico.Props.c132_del",
    "Pico.Props.c132_safe",
    "Pico.Props.c132_data",
    "Pico.Props.c132_null_false"
   ],
   "note": "Fewer than 2^63 elements for slices and indices. In C++ a darray without contents (default constructed or moved from) is reported by data() but makes size(), dtype() and the others undefined (c132_null_false); no Python program has such an object."
  },
  {
   "property": "C133",
   "status": "proved",
   "theorems": [
    "Pico.Props.c133_defined",
    "Pico.Props.c133_freed",
    "Pico.Props.c133_search",
    "Pico.Props.c133_empty",
    "Pico.Props.c133_move",
    "Pico.Props.c133_nn",
    "Pico.Props.c133_budget",
    "Pico.Props.c133_short_false"
   ],
   "note": "The memory of the vector of trees, of the points and of the rotated points is not modelled. At least one point and a leaf size the index type can hold. The answers (c133_nn, c133_budget) are in exact arithmetic. A forest assigned to itself is empty afterwards, as in libstdc++. Queries with too few scalars are read beyond their end (c133_short_false)."
  },
  {
   "property": "C134",
   "status": "proved",
   "theorems": [
    "Pico.Props.c134_euclidean",
    "Pico.Props.c134_topological",
    "Pico.Props.c134_one_dim",
    "Pico.Props.c134_box",
    "Pico.Props.c134_box_topological",
    "Pico.Props.c134_rounding"
   ],
   "note": "Hypotheses as in C01, for each of the trees. c134_rounding: with rounding in the plane a part can find a nearer neighbor than the whole tree, so the arithmetic is exact except in one dimension and for boxes."
  },
  {
   "property": "C135",
   "status": "proved",
   "theorems": [
    "Pico.Props.c135_l1",
    "Pico.Props.c135_nn_l1",
    "Pico.Props.c135_l2",
    "Pico.Props.c135_nn_l2",
    "Pico.Props.c135_so2",
    "Pico.Props.c135_se2",
    "Pico.Props.c135_lpinf"
   ],
   "note": "Hypotheses as in C01 for both queries. Follow is without roots, c135_nn_l2 is the version with roots over the real numbers. c135_lpinf: with metric_lpinf, which is pruned wrongly (C12), the distances do jump."
  },
  {
   "property": "C136",
   "status": "proved",
   "theorems": [
    "Pico.Props.c136_array_of_scalars",
    "Pico.Props.c136_array_of_points",
    "Pico.Props.c136_dynamic_arrays",
    "Pico.Props.c136_minimal",
    "Pico.Props.c136_creation",
    "Pico.Props.c136_save_and_load",
    "Pico.Props.c136_custom_space",
    "Pico.Props.c136_every_point_a_leaf",
    "Pico.Props.c136_single_leaf",
    "Pico.Props.c136_python"
   ],
   "note": "Binary32 and binary64 arithmetic with rounding to nearest. Output of times and texts is not modelled. c136_save_and_load: a platform whose encodings represent the numbers 0 to 9 and the limits of float; that the file can be opened is assumed as in C28."
  },
  {
   "property": "C137",
   "status": "proved",
   "theorems": [
    "Pico.Props.c137_euclidean",
    "Pico.Props.c137_topological",
    "Pico.Props.c137_l1",
    "Pico.Props.c137_l2",
    "Pico.Props.c137_lp",
    "Pico.Props.c137_so2",
    "Pico.Props.c137_se2",
    "Pico.Props.c137_t2"
   ],
   "note": "Hypotheses as in C01 and C10. The lengths are the distances of Mathlib (PiLp, UnitAddCircle, WithLp of a product), not definitions of this project. Exact arithmetic."
  },
  {
   "property": "C138",
   "status": "proved",
   "theorems": [
    "Pico.Props.c138_knn_genuine",
    "Pico.Props.c138_radius_genuine",
    "Pico.Props.c138_self",
    "Pico.Props.c138_knn_grid",
    "Pico.Props.c138_radius_grid",
    "Pico.Props.c138_knn_line",
    "Pico.Props.c138_radius_line",
    "Pico.Props.c138_knn_close",
    "Pico.Props.c138_radius_close"
   ],
   "note": "Calls without a ratio. Coordinates are in the range of the type; distances are below its largest value where k neighbors are claimed. c138_knn_close and c138_radius_close with Metric.L2Squared: no square of a coordinate difference underflows. Metric.LPInf only in the genuine and self theorems (C119 is false for it)."
  },
  {
   "property": "C139",
   "status": "proved",
   "theorems": [
    "Pico.Props.c139_search_s1",
    "Pico.Props.c139_search_t2",
    "Pico.Props.c139_search_lp3",
    "Pico.Props.c139_visited",
    "Pico.Props.c139_search_r3"
   ],
   "note": "Binary32 with rounding to nearest. The random points are arguments with coordinates between the borders. std::pow is a function that is monotone and nonnegative on nonnegative numbers with pow(10) at most 2000. The factor 1.15 comes from the height of a tree of 2^20 points (at most 2^20 - 1). For search_r3 the approximate neighbors are compared by their own distances: 36/25 from the ratio, 1.15 from the tree, and the rounded scaling give 5/3 for squared distances; no underflow, because the coordinates of the query are near 31.5. The number of runs is arbitrary. Output of times and texts is not modelled."
  },
  {
   "property": "C140",
   "status": "proved",
   "theorems": [
    "Pico.Props.c140_nn_genuine",
    "Pico.Props.c140_knn_genuine",
    "Pico.Props.c140_radius_genuine",
    "Pico.Props.c140_py_knn_genuine",
    "Pico.Props.c140_py_radius_genuine",
    "Pico.Props.c140_py_knn_close",
    "Pico.Props.c140_py_radius_close",
    "Pico.Props.c140_py_ratio"
   ],
   "note": "Genuine part: entries whose stored distance is the largest value carry no meaning, as in C44. Rounded part: coordinates in the range of the type, distances below its largest value up to the factor, 1 is represented. c140_py_ratio: no underflow in the inverse of the ratio and in the scaled distances. Metric.LPInf only in the genuine part."
  },
  {
   "property": "C141",
   "status": "proved",
   "theorems": [
    "Pico.Props.c141_static",
    "Pico.Props.c141_dynamic",
    "Pico.Props.c141_other_dimension",
    "Pico.Props.c141_unique",
    "Pico.Props.c141_float",
    "Pico.Props.c141_python"
   ],
   "note": "The scalar type is one whose values correspond to byte patterns (bits, so that +0 and -0 differ); integers of every width are shown to be such. Files whose bytes are not values of the types (a bool of 2, a negative index, a split dimension outside of the dimension) do not load in the model. c141_unique for run time dimensions."
  },
  {
   "property": "C142",
   "status": "proved",
   "theorems": [
    "Pico.Props.c142_circle",
    "Pico.Props.c142_seam",
    "Pico.Props.c142_float",
    "Pico.Props.c142_relative_false"
   ],
   "note": "Rounded arithmetic with gradual underflow, 1 is representable and below numeric_limits::max(); the build finished. shortArc_shortest: the arc is the smallest distance between numbers that stand for the two angles."
  },
  {
   "property": "C143",
   "status": "proved",
   "theorems": [
    "Pico.Props.c143_l1",
    "Pico.Props.c143_l2",
    "Pico.Props.c143_scalar",
    "Pico.Props.c143_box",
    "Pico.Props.c143_wraps_false",
    "Pico.Props.c143_unsigned_false",
    "Pico.Props.c143_unsigned_radius_false"
   ],
   "note": "Model/Narrow: promoted operands, conversion modulo a power of two where a scalar is stored. The build finished and the bounding box is taken from the points. The last three theorems show that the assumption on distances is needed and that unsigned int does not work."
  },
  {
   "property": "C144",
   "status": "proved",
   "theorems": [
    "Pico.Props.c144_one",
    "Pico.Props.c144_radius_empty",
    "Pico.Props.c144_nn_zero",
    "Pico.Props.c144_knn_zero",
    "Pico.Props.c144_ratio_false"
   ],
   "note": "MachineInt with integer division; e = 0 is a division by zero and excluded, negative ratios are not considered. numeric_limits::max() is the largest value of the type."
  },
  {
   "property": "C145",
   "status": "proved",
   "theorems": [
    "Pico.Props.c145_tree",
    "Pico.Props.c145_search",
    "Pico.Props.c145_nn",
    "Pico.Props.c145_nn_point",
    "Pico.Props.c145_radius",
    "Pico.Props.c145_knn",
    "Pico.Props.c145_nn_approx",
    "Pico.Props.c145_radius_approx",
    "Pico.Props.c145_knn_approx",
    "Pico.Props.c145_ties_false"
   ],
   "note": "No law of arithmetic is used, so that it holds for floats without NaN. search_knn needs computed distances below numeric_limits::max(). c145_ties_false is the negation for points that share a coordinate."
  },
  {
   "property": "C146",
   "status": "proved",
   "theorems": [
    "Pico.Props.c146_files",
    "Pico.Props.c146_tree",
    "Pico.Props.c146_knn",
    "Pico.Props.c146_knn_empty",
    "Pico.Props.c146_box",
    "Pico.Props.c146_box_rounded",
    "Pico.Props.c146_box_beyond",
    "Pico.Props.c146_radius",
    "Pico.Props.c146_radius_le",
    "Pico.Props.c146_cover"
   ],
   "note": "One run of the measured loop; sums are modulo 2^64. In rounded arithmetic the radius benchmark counts at most the pairs whose computed distance is below the computed square (c146_radius_le). dynamic_space is modelled in C151; not modelled are nanoflann and the OpenCV flann benchmarks."
  },
  {
   "property": "C147",
   "status": "proved",
   "theorems": [
    "Pico.Props.c147_build",
    "Pico.Props.c147_points",
    "Pico.Props.c147_exact",
    "Pico.Props.c147_short_false",
    "Pico.Props.c147_value_false",
    "Pico.Props.c147_kept"
   ],
   "note": "std::nth_element is taken to read every point of its range, also a range of one. A standard library that calls the comparator for elements outside of the range is excluded in c147_points and c147_kept (Std.Local, as in C79)."
  },
  {
   "property": "C148",
   "status": "partial",
   "theorems": [
    "Pico.Props.c148_radius",
    "Pico.Props.c148_knn",
    "Pico.Props.c148_tests",
    "Pico.Props.c148_hang_false",
    "Pico.Props.c148_border_false"
   ],
   "note": "False for two runs that are possible: a point at the distance 2.5 fails the radius test (c148_border_false with c148_radius), coinciding points that are inserted first never end (c148_hang_false). Proved for all others, in exact arithmetic; distances below numeric_limits::max(). The move of the tree in the test is C130."
  },
  {
   "property": "C149",
   "status": "proved",
   "theorems": [
    "Pico.Props.c149_nn",
    "Pico.Props.c149_radius",
    "Pico.Props.c149_nn_l1",
    "Pico.Props.c149_nn_l2",
    "Pico.Props.c149_radius_l1",
    "Pico.Props.c149_line",
    "Pico.Props.c149_midpoint_false",
    "Pico.Props.c149_circle",
    "Pico.Props.c149_circle_midpoint_false",
    "Pico.Props.c149_line_others_false"
   ],
   "note": "Exact ordered-field arithmetic. The trees of the first part have two points and are built with the sliding midpoint rule with given bounds. c149_midpoint_false: an empty cell next to the query, an error of 5 with the ratio 6. c149_circle, c149_circle_midpoint_false: the same for metric_so2. c149_line_others_false: k nearest neighbors and radius searches lose points on a line already."
  },
  {
   "property": "C150",
   "status": "proved",
   "theorems": [
    "Pico.Props.c150_match",
    "Pico.Props.c150_category",
    "Pico.Props.c150_shows",
    "Pico.Props.c150_plots",
    "Pico.Props.c150_label",
    "Pico.Props.c150_label_false",
    "Pico.Props.c150_box",
    "Pico.Props.c150_name_false"
   ],
   "note": "The regular expressions are modelled with the order in which re tries its matches. \\d is an ASCII digit, float() of it the exact number, the cpu times are of any type. matplotlib is not modelled. Suffixes of the benchmark library: none, _mean, _median, _stddev, _cv."
  },
  {
   "property": "C151",
   "status": "proved",
   "theorems": [
    "Pico.Props.c151_types",
    "Pico.Props.c151_made",
    "Pico.Props.c151_new",
    "Pico.Props.c151_shared",
    "Pico.Props.c151_follows",
    "Pico.Props.c151_stale_false"
   ],
   "note": "Space types with traits of their own are one definition: a compile time dimension, and coordinates one point after the other. A call compiles if the argument has the type of the parameter or one conversion operator leads there; converting constructors are not modelled. c151_stale_false is the part of the statement about a changed dimension."
  },
  {
   "property": "C152",
   "status": "proved",
   "theorems": [
    "Pico.Props.c152_check",
    "Pico.Props.c152_refl",
    "Pico.Props.c152_eigen",
    "Pico.Props.c152_opencv",
    "Pico.Props.c152_vector",
    "Pico.Props.c152_map",
    "Pico.Props.c152_blind_false",
    "Pico.Props.c152_self_false"
   ],
   "note": "The static assertions of the tests are not modelled. GoogleTest as in the other claims about tests, following its documentation. The references of the vector test lead to the same object. c152_blind_false and c152_self_false are the parts of the statement about what is not noticed."
  }
 ]
}