R='Hypotheses: the build finished, coordinates representable, distances below numeric_limits::max(); exact ordered-ring arithmetic.'
c('C01','proved',['c01_nn_l1','c01_nn_l2'],R)
c('C02','proved',['c02_knn_l1','c02_knn_l2'],R)
c('C04','proved',['c04_radius_l1','c04_radius_l2'],R)
c('C05','proved',['c05_nn_approx','c05_nn_approx_l1','c05_nn_approx_l2'],R)
c('C06','proved',['c06_knn_approx','c06_knn_approx_l1','c06_knn_approx_l2'],R)
c('C07','proved',['c07_radius_approx','c07_radius_approx_l1','c07_radius_approx_l2'],R)
c('C10','proved',['c10_nn_so2','c10_knn_so2','c10_radius_so2'],R+' Custom start bounds must lie in [0,1] when the midpoint rule is used.')
c('C11','proved',['c11_nn_se2','c11_knn_se2','c11_radius_se2'],R+' Custom start bounds must lie in [0,1] on the circle axis when the midpoint rule is used.')
c('C14','proved',['c14_visitor_contract','c14_visitor_all_points'],R)
c('C15','proved',['c15_nn_euclidean','c15_knn_euclidean','c15_radius_euclidean','c15_nn_topological','c15_knn_topological','c15_radius_topological','c15_lp_euclidean','c15_torus_topological'],R)
c('C16','proved',['c16_partition','c16_exactly_once'],'Any scalar type, any arithmetic, any conforming standard library; hypothesis: the build finished.')
c('C17','partial',['c17_leaf_ranges_partial','c17_characterisation','c17_false'],'The code dereferences null children of an empty leaf: c17_false is a witness (midpoint rule). Proved for the median and sliding midpoint rules; c17_characterisation gives the outcome for every tree.')
c('C18','partial',['c18_leaf_size_partial','c18_single_leaf_partial','c18_false'],'Proved for stop values that fit the signed index type. The code narrows the size_t value: c18_false shows that 2^32 and SIZE_MAX never finish.')
c('C19','partial',['c19_leaf_depth_partial','c19_false'],'Proved for depth limits that fit the signed index type; c19_false: 2^32 is narrowed to 0.')
c('C20','proved',['c20_nonempty'],'Any scalar type, any arithmetic; hypothesis: the build finished.')
c('C21','partial',['c21_balanced','c21_height_partial','c21_false'],'Balance proved without restriction; the height bound for stop values that fit the index type (c21_false: 2^32+1 is narrowed to 1).')
c('C22','partial',['c22_terminates_partial','c22_terminates_depth_partial','splitSafe_field','splitSafe_int','splitSafe_rounding','c18_false'],'Proved for stop values that fit the index type and arithmetic without overflow on the coordinates (SplitSafe, shown for exact fields, 32-bit-like integers and rounded arithmetic). c18_false: stop values that are narrowed to a non-positive number never finish.')
c('C23','partial',['c23_midpoint_partial','c23_rounding_partial','c23_ieee_partial','c23_false','c23_stuck_false','c23_float_false','c23_int_false'],'c23_false: more than m coincident points recurse forever. c23_stuck_false, c23_float_false: in floating point arithmetic also different points, if the midpoint is rounded to the lower side of the cell; c23_int_false: with integers no points at all are separated. c23_midpoint_partial: otherwise the build finishes in exact Archimedean arithmetic with a start box containing the points; c23_rounding_partial, c23_ieee_partial: with rounding, if different coordinates differ by at least 16 u times the largest.')
c('C42','proved',['c42_cells'],'Exact arithmetic.')
c('C43','proved',['c43_z_order','c43_digits'],'Exact arithmetic; c43_digits justifies the digits used in the specification.')
c('C08','proved',['c08_box','c08_box_order','c08_box_inverted'],'Start bounds contain the points.')
c('C09','proved',['c09_box','c09_box_so2','c09_box_se2'],'Start bounds contain the points.')
c('C24','proved',['c24_euclidean','c24_topological','c24_box','c24_box_topological'],R)
c('C25','partial',['c25_nearest_partial','c25_box_superset_partial','c25_box_superset_topological_partial','c25_box_false','c25_so2_false'],'c25_box_false: bounds that do not contain the points give false box results; c25_so2_false: bounds outside [0,1] with the midpoint rule give a wrong nearest neighbor on the circle. Nearest searches with Euclidean metrics are independent of the bounds; box searches never lose points.')

c('C03','partial',['c03_range_partial','c03_range_topological_partial','c03_false'],R+' c03_false: for k > n the tail of the range keeps old entries. The partial theorems give the whole contents of the range.')
c('C12','partial',['c12_distance','c12_nn_partial','c12_knn_partial','c12_radius_partial','c12_one_dim_partial','c12_false','c12_tight'],'c12_false: metric_lpinf is pruned with summed offsets and misses the nearest neighbor in two dimensions. Partial: the result is at most d times farther; exact in one dimension. c12_tight: no factor below d would do, in any dimension, and a radius search finds nothing though there is a point at 1/c of the radius.')
c('C13','partial',['c13_distance','c13_nn_partial','c13_knn_partial','c13_radius_partial','c13_one_dim_partial','c13_false','c13_unbounded'],'c13_false: metric_lninf misses the nearest neighbor in two dimensions. Partial: what is still guaranteed; exact in one dimension. c13_unbounded: in every dimension from two on the error is not bounded by any factor.')
c('C26','proved',['c26_nn','c26_knn_any','c26_knn','c26_knn_topological','c26_radius','c26_box'],R+' c26_nn and c26_knn_any hold for any arithmetic.')
c('C27','partial',['c27_false','c27_defined_partial'],'c27_false: k = 0 dereferences std::prev(begin) of an empty range, for every tree and query. Defined for k >= 1.')
c('C40','proved',['c40_euclidean','c40_topological','c40_box'],R)
c('C44','partial',['c44_nn_partial','c44_nn_untouched','c44_knn_range_partial','c44_knn_partial','c44_radius','c44_false'],'No algebraic law. c44_false: a distance equal to numeric_limits::max() is not accepted, so the output keeps its old index. Partial theorems: distances below max().')

c('C41','proved',['c41_l1','c41_lpinf','c41_so2','c41_l2_squared','c41_se2_squared','c41_scalar','c41_scalar_circle','c41_scalar_se2'],'Exact arithmetic.')
c('C45','proved',['c45_l1','c45_l2'],'Every rounding that is monotone, symmetric, for which twice a scalar and the sign of a difference are exact; ieee p e (round to nearest even with gradual underflow) is one. No overflow.')
c('C46','partial',['c46_false','c46_representable','c46_nn_partial','c46_knn_partial','c46_radius_partial','c46_ieee_partial'],'c46_false: a float (24 bit) example in the plane with five points. Partial: error bound (1+u)^(2h)/(1-u)^d for the (k) nearest neighbor(s), and completeness of radius search up to that factor.')

S='Every platform whose types hold the sizes involved; every content of the padding bytes; every data before and behind in the stream.'
c('C28','proved',['c28_roundtrip','c28_roundtrip_dynamic','c28_built','c28_built_topological','c28_coordinates','c28_coordinates_topological'],S+' Same platform on both sides. The file opening functions are not modelled. c28_coordinates: with the median and the sliding rule only the coordinates of the points, the corners of given start bounds and the limits of the scalar type need an encoding.')
c('C29','proved',['c29_sequence','c29_prefix','c29_prefix_dynamic'],S+' Running out of data is the outcome eof of the model: the code does not test the stream state and goes on with indeterminate values.')
c('C30','proved',['c30_accepts_iff','c30_rejects','c30_written','c30_roundtrip'],'Holds for every file, also truncated ones, and every content of the uninitialised local variables. The body of a file behind a correct header is not validated by the code.')
c('C51','proved',['c51_load_terminates','c51_load_terminates_dynamic','c51_load_local'],'Termination up to the end of the data. Behind the end the code reads indeterminate values (outcome eof).')
c('C52','proved',['c52_segment_r1','c52_contains_s1','c52_segment_s1'],'Exact arithmetic.')
c('C53','proved',['c53_contains_r1','c53_contains_s1'],'Exact arithmetic; the argument is a segment_r1, hence min <= max.')
c('C54','partial',['c54_false','c54_dimension_partial'],'c54_false: a three dimensional tree is accepted by a two dimensional program, the stored dimension is ignored. c54_dimension_partial: with a run time dimension the stored one is used.')
c('C31','partial',['c31_no_alias_partial','c31_freed_partial','c31_ends','c31_held_twice','c31_false'],'Partial: proved for programs that do not allocate from a moved-from allocator and do not move-assign to an allocator that owns memory. c31_false: a moved-from chunk_allocator keeps its chunk pointer and index and hands out objects of its successor.')
c('C32','partial',['c31_no_alias_partial','c31_freed_partial','c32_false','c32_self_false','c32_alias_false'],'The statement is false for the code: list_pool_resource::operator= overwrites head_ without releasing it (c32_false, c32_self_false leak), and the moved-from allocator aliases its successor or uses freed memory (c32_alias_false). Proved part: assignment to an empty or moved-from allocator, with no allocation from a moved-from one.')
c('C55','proved',['c55_build','c55_build_fails','c55_load'],'Any behaviour of operator new that returns unused addresses and does not fail. The three assignments to a branch node are modelled as one.')

c('C33','proved',['c33_knn','c33_radius','c33_radius_approx','c33_knn_schedule','c33_programs','c33_cells_schedule','c33_radius_step','c33_box_step'],'Every interleaving of the iterations of the OpenMP loop. A cell of a vector result is one shared variable; hypotheses: queries and outputs in valid arrays of the right dimension.')
c('C34','partial',['c34_partial','c34_false','c34_zero_false'],R+' c34_zero_false: k = 0 is undefined behaviour. c34_false: for k greater than the number of points the remaining cells of the new array hold index 0 and distance 0. Partial: k at least one and at most the number of points.')
c('C35','partial',['c35_new_partial','c35_one_partial','c35_given_partial','c35_resized_partial','c35_order_false','c35_shape_false','c35_strided_false','c35_reversed_false'],'Four witnesses against the statement: F ordered queries, output of another shape with the same number of elements, strided output, reversed output. Partial: C ordered queries, or k = 1, or a fitting contiguous output.')
c('C36','proved',['c36_index','c36_slice','c36_slice_step'],'Fewer than 2^63 elements; the slice is specified after the Python Language Reference.')
c('C37','proved',['c37_pairs','c37_odd','c37_exact'],'')
c('C38','partial',['c38_accept','c38_view','c38_metric','c38_mat_partial','c38_false','c38_mat_false'],'c38_false: an F ordered array with one column is also C ordered and read as rows; c38_mat_false: a cv::Mat with gaps between rows is read wrongly. NumPy arrays that are only C or only F ordered are read correctly.')
c('C39','partial',['c39_partial','c39_false'],'Static dimensions (2, 3) raise. c39_false: with a run time dimension longer queries are accepted and the metric reads behind the points.')
c('C56','proved',['c56_request'],'')
c('C57','partial',['c57_partial','c57_false'],'c57_false: a contiguous one dimensional array or a zero dimensional array is undefined behaviour. Partial: more than two dimensions and strided one dimensional arrays raise.')
c('C58','partial',['c58_constructor','c58_partial','c58_false'],'c58_false: load_kd_tree has no keep_alive, the points of a loaded tree are freed with the last variable. Proved for trees made by the constructor in any program.')
c('C59','partial',['c59_item','c59_partial','c59_item_partial','c59_iter_false','c59_reuse_false','c59_shrink_false'],'Witnesses: views from an iteration do not keep the DArray; reuse of a DArray as output moves the elements; shrinking it during an iteration lets the iterator read behind the end. Proved for indexing and for results that fit into the memory of the DArray.')
c('C60','proved',['c60_knn','c60_radius','c60_box'],'A call that raises returns no new memory contents in the model; NumPy may have resized a read-only output before.')

c('C48','proved',['c48_nn','c48_knn','c48_radius','c48_nn_approx','c48_knn_approx','c48_radius_approx','c48_l1','c48_lpinf','c48_l2','c48_squared_false'],'Exact arithmetic; every tree that the builder produces, whatever leveling, insertion order and std::partition / std::sort. The triangle inequality is a hypothesis, shown for metric_l1, metric_lpinf and metric_l2 (real square root). c48_squared_false: it is needed, metric_l2_squared is accepted and gives wrong answers. The simplified variant of the tree (the one that is compiled) is modelled.')
c('C49','proved',['c49','c49_max_distance'],'Any arithmetic of distances and levels. Includes that remove_leaf is never called for a leaf and that the node buffers never grow.')
c('C50','partial',['c50_iff','c50_partial','c50_false'],'c50_false: with two coinciding points inserted first and a different point later the construction never ends (level minus infinity). c50_iff: exactly then. Levels are integers or minus infinity (exact arithmetic), the base and the logarithms are arbitrary.')
c('C47','partial',['c47_budget','c47_sound_partial','c47_exact','c47_exact_points','c47_terminates','c47_zero','c47_zero_false'],'c47_zero_false: a budget of zero leaves or an empty forest leaves the index of the caller untouched. Otherwise proved in exact arithmetic for arbitrary unit vectors and any conforming std::priority_queue; c47_budget for any arithmetic.')
c('C61','partial',['c61_partial','c61_knn_partial','c61_count_partial','c61_false'],'c61_false: with two trees the visitor of search_knn lists the same point twice. Proved for one tree; for several trees a point is presented at most once for each tree.')
c('C62','proved',['c62_isometry','c62_involution','c62_normalize','c62_drawn'],'Exact arithmetic (ordered rings; real square root for normalize).')
c('C63','partial',['c63_partial','c63_false'],'c63_false: metric_l1 is accepted, the reported distance is the one of the reflected points. c63_partial: for one tree, any metric and any arithmetic it is that distance.')
c('C64','proved',['c64_nn_approx_so2','c64_knn_approx_so2','c64_radius_approx_so2','c64_visitor_so2','c64_nn_approx_se2','c64_knn_approx_se2','c64_radius_approx_se2','c64_visitor_se2'],'Hypotheses: the build finished, coordinates representable, distances below numeric_limits::max(), query on the circle; exact arithmetic (ordered fields).')
c('C65','proved',['c65'],'Any base, logarithms, partition and insertion order; symmetric distance.')
c('C66','partial',['c66_partial','c66_max_distance_partial','c66_l2_partial','c66_false'],'c66_false: with base 1.3 (the base that the comments recommend) four points on a line give a root whose level does not cover a point below it. Proved for every base of at least two.')
c('C67','partial',['c67_partial','c67_false'],'c67_false: with base 1.3 six points on a line give a tree in which a point is not below its nearest child. Proved for every base of at least two.')
c('C68','proved',['c68_l1','c68_l2','c68_ieee'],'Median and sliding midpoint rules; rounded arithmetic with gradual underflow, without overflow; the build finished, distances below numeric_limits::max().')
c('C69','proved',['c69_l1','c69_l2','c69_overflow'],'Overflowing operations have an arbitrary value; c69_overflow: a wrong neighbour beyond the bound on a machine that wraps around. Median and sliding midpoint rules; the build finished.')
c('C70','proved',['c70_so2'],'Rounded arithmetic with gradual underflow, without overflow; the build finished, coordinates in [0,1] and representable.')
c('C71','proved',['c71_se2','c71_t2'],'Median and sliding midpoint rules; rounded arithmetic with gradual underflow, without overflow; the build finished, circle coordinates in [0,1].')
c('C72','partial',['c72_median_partial','c72_sliding_partial','c72_duplicates','c72_false'],'The code violates the statement: c72_duplicates shows that c coinciding points make every sliding midpoint tree at least c - max_leaf_size levels deep at quadratic cost (any scalar type), c72_false that no constant makes O(n log n) hold. Proved: n (log n + 1) for the median rule, height at most n - max_leaf_size and quadratic work for the sliding midpoint rule. Stop values that fit the index type.')
c('C73','proved',['c73_big_endian','c73_all_bytes','c73_swap','c73_agree'],'std::size_t of 64 bits; two\'s complement.')
c('C74','partial',['c74_round_trip_partial','c74_all_elements','c74_stale','c74_false'],'The code violates the statement for the empty vector: the file is left as it was (c74_stale, c74_false). Proved for all other vectors. Files that exist can be opened.')
c('C75','partial',['c75_images_partial','c75_labels_partial','c75_shapes','c75_accepts','c75_undefined','c75_magic','c75_false','c75_overflow','c75_short'],'The code violates the statement: only the product of width and height is compared (c75_false), computed with int (c75_overflow: undefined behaviour), and short files give black images (c75_short). Proved: files of the format are read as written; exactly which files with a complete header are accepted, and for which the behaviour is undefined; another magic number is rejected.')
c('C76','partial',['c76_name','c76_read_partial','c76_accepts_everything','c76_false'],'The code violates the statement: the dimension stored before each vector is ignored (c76_accepts_everything, c76_false). Proved: files of the right dimension are read as written; the check of the name. File names below 2^63 characters, classic locale.')
c('C77','proved',['c77_euler','c77_isometry','c77_orientation','c77_real'],'Exact arithmetic (commutative ring); sines and cosines with s^2 + c^2 = 1, in particular real angles. Reading of the pose file is not modelled.')
c('C78','partial',['c78_line_partial','c78_two','c78_blank','c78_lines','c78_points','c78_false'],'The code violates the statement: a line with two numbers repeats the second (c78_two), a blank line gives a point (c78_blank). Proved: lines with three words, order and number of points. strtod is arbitrary; the order of directory entries is given.')
c('C79','proved',['c79_visitor','c79_box','c79_build','c79_answers','c79_later'],'std::partition and std::nth_element apply the predicate and the comparator to elements of the range only (Std.Local).')
c('C80','partial',['c80_accepts','c80_outside','c80_same_partial','c80_false'],'The code violates the statement: the size of the space is not compared (c80_accepts), and with a smaller space every tree refers to points behind its end (c80_outside, c80_false). Proved for spaces of at least the saved number of points.')
c('C81','partial',['c81_nn','c81_knn','c81_radius','c81_metrics','c81_nn_partial','c81_knn_partial','c81_radius_partial','c81_false'],'The code violates the statement: box searches report NaN points, metric_lpinf ignores NaN, and with the median rule a valid nearest neighbor is missed (c81_false). Proved for every tree: the nearest, k nearest and radius searches with the metrics that add over all coordinates never report a NaN point or a NaN distance; c81_nn, c81_knn, c81_radius hold for scalars without any order law.')
c('C82','partial',['c82_query_partial','c82_radius_partial','c82_false'],'The code violates the statement for boxes: a box of NaN contains everything, and with NaN in one dimension the answer depends on max_leaf_size (c82_false). Proved for nearest, k nearest and radius searches on every tree with the metrics that add over all coordinates, and for a NaN radius.')
c('C83','partial',['c83_partition_partial','c83_build_partial','c83_box_partial','c83_box_topological_partial','c83_false','c83_false_case','c83_inf_false'],'The code violates the statement for the midpoint rule: a side that overflows makes the recursion endless whatever the fuel (c83_false), and points all at infinity lead to undefined behaviour (c83_inf_false). Proved for the median and sliding midpoint rules: the tree partitions the points and box searches are exact for every input without NaN; the construction finishes when one axis has finite coordinates.')
c('C84','partial',['c84_partial','c84_one_dim_partial','c84_error_partial','c84_false'],'The code violates the statement for coordinates above half of the largest number: left_max + right_min overflows, the wrong child is visited first and the nearest neighbor is missed (c84_false). Proved for coordinates up to half of the largest number and any finite query: construction and searches are the images of those without overflow (c84_partial); so they are exact in one dimension (c84_one_dim_partial) and satisfy the error bound of C46 in any (c84_error_partial).')
c('C85','proved',['c85_nn','c85_knn','c85_radius','c85_ieee'],'Both metrics satisfy the structure SquareSum the theorems assume (squareSum_se2, squareSum_t2).')
c('C86','proved',['c86_l1','c86_l2','c86_ieee'],'The absence of underflow is a hypothesis of the statement: differences are zero or their squares are in the normal range. TrueUpTo speaks of Spec.l1 and Spec.l2Sq of the exact coordinates only.')
c('C87','partial',['c87_space_partial','c87_owned','c87_point_partial','c87_block_partial','c87_space_false','c87_point_false','c87_block_false'],'The code violates the statement: data() is read without regard to innerStride(). Maps with an inner stride (c87_space_false: wrong nearest neighbor), strided vectors (c87_point_false) and columns of row major matrices (c87_block_false) compile and are read wrongly. Proved for inner stride one, in particular for every matrix that owns its memory (c87_owned).')
c('C88','proved',['c88_point','c88_space'],'')
c('C89','proved',['c89_result','c89_count','c89_lower'],'')
c('C90','proved',['c90_l1','c90_l2','c90_lpinf','c90_lninf','c90_topological','c90_l2_other'],'c90_l2_other: with metric_l2_squared another point at computed distance zero can be found, since squares underflow.')
c('C91','proved',['c91_one_range','c91_one','c91_ratio_one','c91_ratio_float','c91_radius','c91_euclidean','c91_topological','c91_one_dim','c91_rounding'],'c91_rounding: with rounding in the plane search_nn and the first of search_knn can disagree, so the last part needs exact arithmetic.')
c('C92','proved',['c92_euclidean','c92_topological','c92_ratio','c92_ieee'],'1 is representable; c92_ratio, c92_ieee: the scaled distances do not underflow.')
c('C93','partial',['c93_partial','c93_depth_partial','c93_narrow','c93_false','c93_wrap'],'False (c93_false): std::iota is called with the int literal 0, so 2^31 points are undefined behaviour for every index type, 64 bits included. False for types narrower than int (c93_narrow): with 2^(w-1) points the end of the last leaf wraps. Proved for n < 2^31 and n < 2^(w-1).')
c('C94','partial',['c94_partial','c94_l1_partial','c94_l2_partial','c94_false'],'False (c94_false): with float coordinates the returned point can be ten million times as far as the nearest one. Proved: all six searches lose at most a summand s that bounds the excess of the computed lower bounds (c94_partial); for metric_l1 and metric_l2 s is (2 (((1+u)/(1-u))^k - 1) + u) times the largest computed distance, with u the relative error of one operation.')
c('C95','partial',['c95_partial','c95_topological_partial','c95_nothing','c95_infinite','c95_false','c95_infinite_false'],'Proved for ratios between zero and one in exact arithmetic, all three searches, Euclidean and topological. False otherwise (c95_false): the ratio is not checked, -1 gives the farthest point with a negative distance, and zero and NaN find nothing on any tree (c95_nothing). With an infinite ratio all distances are zero (c95_infinite, c95_infinite_false).')
c('C96','partial',['c96_partial','c96_float_partial','c96_computed_partial','c96_normalize','c96_false'],'False as stated (c96_false): the rotation is about the origin, so its rounding error grows with the distance of the points from the origin; far from the origin a query that is a stored point gets a different point with distance zero. Proved instead: the computed distance on the rotated points is minimal up to (1+u)^(2 height) / (1-u)^d, no visited point is closer, and the true distance exceeds the smallest one by a relative error plus a multiple of the distance X from the origin; for float (1 + 1/500) a + X / 2000. normalize gives unit vectors up to rounding if nothing underflows.')
c('C97','proved',['c97_l1','c97_l2','c97_ieee','c97_float','c97_limit'],'Median and sliding midpoint rules; rounded arithmetic with gradual underflow, without overflow; the build finished, computed distances below numeric_limits::max(). c97_limit: beyond the limit the nearest neighbor can be missed.')
c('C98','partial',['c98_partial','c98_one_partial','c98_stale','c98_second_run','c98_rerun_false','c98_false'],'False with ties (c98_false: indices are compared, so another nearest point counts as a miss) and with a file of an earlier run (c98_stale: more answers than queries read behind the end of the test set). Without a file and in exact arithmetic: what is counted is right, with unique nearest points the count is exact, with a sufficient budget the precision is one. The file is not compared with the training set.')
c('C99','partial',['c99_box_partial','c99_box_false','c99_box_tree','c99_radius_partial','c99_radius_right','c99_radius_tree','c99_radius_false','c99_reference','c99_reference_false','c99_knn_partial','c99_knn_false','c99_box_outside','c99_radius_outside','c99_knn_short_false','c99_knn_right','c99_knn_tree'],'False: duplicates pass test_box and test_radius, indices are not looked at in test_knn, and test_radius counts points at distance equal to the radius, which search_radius rightly leaves out. Proved: the helpers are right for results without duplicates and with genuine distances; the tree passes test_box and test_knn always and test_radius exactly if no point is at the distance radius; the brute force reference is right for k > 0 and undefined for k = 0.')
c('C100','proved',['c100_answer','c100_euclidean','c100_topological'],'Exact arithmetic; the same build, the distances below numeric_limits::max() for k > 1. Points looked at: those shown to the visitor.')
c('C101','partial',['c101_false','c100_euclidean','c100_topological'],'False: c101_false has seven points where the ratio 2 looks at two points and the ratio 3 at three, two of them others, and finds a better answer. Proved in C100: every ratio of at least one looks at a part of what the exact search looks at, and for radius searches a larger ratio looks at a part of what the smaller one looks at.')
c('C102','proved',['c102_opened','c102_reached','c102_radius','c102_nn'],'Exact arithmetic, Euclidean metrics that add over the axes. The upper bound for trees without empty leaves (median and sliding midpoint rules, C20).')
c('C103','partial',['c103_partial','c103_nn_partial','c103_knn_partial','c103_radius_partial','c103_root_partial','c103_false','c103_levels_false','c103_covers_false','c103_apart_false'],'Proved for every build that finishes: all points are there once, the recorded distances are right and the searches exact, for all levelings and distances. False: a build can call remove_leaf for a leaf (undefined behaviour), and no invariant holds, already with base two; witnesses.')
c('C104','proved',['c104','c104_leaf'])
c('C105','partial',['c105_line_partial','c105_line_count_partial','c105_topological_false','c105_all_false','c105_false'],'Proved for one dimension and Euclidean metrics: at most two leaves are read. False for topological metrics (every search with min <= max reads every point it does not report) and in the plane (n points read, none reported, for the median and sliding midpoint rules).')
c('C106','proved',['c106_tree_euclidean','c106_tree_topological','c106_search','c106_l1','c106_l2','c106_approx','c106_approx_l2','c106_box','c106_se2','c106_reflect_false','c106_int_false'],'The limits: reflections (factor -1) change which one of two equally near points is returned, and the truncating halving of integers changes the leaves if the unit changes.')
c('C107','partial',['c107_names','c107_scans','c107_pose_name','c107_replace','c107_partial','c107_missing','c107_order','c107_exits','c107_pose_partial','c107_pose_short','c107_pose_word','c107_names_false','c107_dir_false','c107_pose_false'],'Violated: the dot of the pattern is not escaped, so scan000_3d is read as well; a pose with fewer than six numbers is read from uninitialised variables; a word in place of the sixth number counts as a number.')
c('C108','partial',['c108_digits','c108_float','c108_float_file','c108_file','c108_injective_partial','c108_programs_partial','c108_no_points','c108_double_false','c108_empty','c108_stale'],'Violated: ten digits do not tell doubles apart; an empty vector leaves the old file; the programs keep files that are there already. Proved for float and for a directory without these files.')
c('C109','proved',['c109_nodes','c109_leaves','c109_build','c109_load','c109_bytes','c109_float','c109_double'],'Stop values that fit the index type; for the bytes, values that fit the types they are saved with.')
c('C110','partial',['c110_segments','c110_distances','c110_metrics','c110_box','c110_splitter_median','c110_splitter_midpoint','c110_splitter_sliding','c110_leaf_ranges_partial','c110_leaf_ranges_false','c110_python_creation','c110_python_search','c110_comparisons','c110_ordinal_neg','c110_so2_box','c110_so2_knn'],'All but the number of ranges in KdTreeTest.LeafRanges, which is smaller if a leaf of one point comes early. The random Euclidean tests are C99. Square root and pow are assumed right on the inputs used.')
c('C111','partial',['c111_tree_partial','c111_search_partial','c111_l1_partial','c111_l2_partial','c111_float_l1_partial','c111_float_l2_partial','c111_false','c111_tree_false'],'Proved without underflow for all powers of two, rules and both metrics; with gradual underflow (float, double) for scaling up, the median rule, and squares that are zero or normal numbers. False in general: squares underflow to zero, and half of the smallest number is rounded.')
c('C112','partial',['c112_saved_partial','c112_loaded_partial','c112_loaded_dynamic_partial','c112_file_partial','c112_missing_partial','c112_cut','c112_cut_dynamic','c112_python','c112_silent_false','c112_false','c112_answer_false'],'Reported is only a file that cannot be opened, and in Python a cut within the header. False otherwise (c112_false: for every tree). Proved: a caller who passes their own stream and looks at its state afterwards is safe in both directions; a file always holds a prefix of what it should; a cut of more than the last leaf never gives a tree (it is undefined behaviour), a smaller one gives the tree with an arbitrary range in its last leaf.')
c('C113','proved',['c113_build_throws','c113_build','c113_build_same','c113_build_enough','c113_build_calls','c113_build_none','c113_load_throws','c113_load','c113_load_enough','c113_load_calls','c113_others'],'Any call of new may fail. Also counts the calls. For a dimension that is read from the stream, the stored dimension is taken to be the one of the model type.')
c('C114','partial',['c114_euclidean','c114_topological','c114_l2','c114_axes','c114_turn','c114_se2','c114_box','c114_arc_partial','c114_arc_false','c114_lpinf_false'],'Proved but for box search on the circle, where it fails if a coordinate is 1: 0 and 1 are the same angle for the distance but not for the box (c114_arc_false). Also fails for metric_lpinf, whose searches are not exact (c114_lpinf_false).')
c('C115','partial',['c115_make','c115_loads_partial','c115_euclidean_partial','c115_topological_partial','c115_search_partial','c115_leaf_partial','c115_false'],'Proved but for the last sentence: the file of a tree for a topological metric is accepted as one for a Euclidean metric, with leaves that have no meaning (c115_false).')
c('C116','partial',['c116_trace','c116_line_partial','c116_median_partial','c116_equal','c116_equal_all','c116_sliding_false','c116_false','c116_beside','c116_plane_false'],'The second sentence is proved for every tree and visitor (c116_trace). The bound on time is false: distinct points on a line make the sliding midpoint tree a chain (c116_sliding_false), equal points are all looked at with every rule and ratio (c116_false). Proved instead: on a line with distinct points at most 2k+1 leaves are opened, so that the bound holds with the median rule (c116_line_partial, c116_median_partial). In more than one dimension it is false for distinct points and balanced trees, too: a query beside points on a line parallel to an axis looks at all of them (c116_beside for every rule, c116_plane_false).')
c('C117','partial',['c117_radius','c117_knn','c117_box','c117_performed','c117_performed_knn','c117_performed_box','c117_ratio_ignored','c117_ratio_false','c117_errors','c117_none'],'Proved for floats, integers, bools, arrays and DArrays of the documented kinds in every position and order; for arbitrary objects, what is performed uses all of the objects given, unconverted except for sort. False for search_radius(pts, radius, e) with a ratio that is not a Python float (an int, a numpy.float32): the overload with sort takes it by its truth value and searches exactly (c117_ratio_false); this is the only way to lose a ratio (c117_ratio_ignored). None is an error everywhere (c117_none).')
c('C118','partial',['c118_same_partial','c118_partial','c118_range','c118_overflow_false','c118_false','c118_example'],'Proved when the number of results of all queries is below 2^64, and for integers that do not fit into a size_t (they raise). False otherwise: query.size() * k wraps around, so that with two query points and k = 2^63 the output stays empty and the results are written behind its end.')
c('C119','partial',['c119_make','c119_load','c119_attributes','c119_metric','c119_dtype','c119_errors','c119_knn_partial','c119_radius_partial','c119_box','c119_lpinf_false','c119_more_false'],'Boxes, attributes, construction, saving and loading: proved. Nearest neighbors and radius: proved for Metric.L1 and Metric.L2Squared, for Metric.LPInf on a line, and for k up to the number of points. False for Metric.LPInf in the plane (wrong nearest neighbor) and for k above the number of points (entries that are no points). Scalars are those of an ordered field.')
c('C120','partial',['c120_refused_iff','c120_never_refused_false','c120_false'],'False: the scalar type is not part of the file. Proved is what load_kd_tree does refuse: for a float array of points exactly the files whose header is not accepted. No saved file is ever refused, and the file of one double (1.0000000000000002) is loaded as a tree of one float whose leaf ends at 20967424.')
c('C121','partial',['holds_vector','holds_map','computes_l1','computes_l2','computes_lpinf','computes_lninf','computes_so2','computes_se2','c121_nearest_euclidean','c121_nearest_topological','c121_box_euclidean','c121_box_topological','c121_bounds','c121_compiles','c121_rejected_partial','c121_bounds_false','c121_long_false','c121_short_false','c121_leaf_false','c121_se2_false','c121_dynamic_false','c121_box_false'],'The half on reads is proved: with the right number of coordinates the searches with checked reads are never undefined and equal those over abstract points. The half on rejection is false: only search_nearest has a static_assert, which only compares two dimensions known at compile time (c121_rejected_partial). search_box and bounds_t check nothing, run time dimensions are never compared; what then happens is c121_*_false.')
c('C122','partial',['computes_so2At','computes_se2At','c122_so2_partial','c122_se2_partial','c122_so2_false','c122_se2_false','c122_se2_short_false'],'False: nothing compares the dimension of the points with the metric. With a dimension too many both metrics measure a part of the coordinates only while the tree is pruned along all, so that the nearest neighbor is missed; metric_se2_squared with less than three coordinates reads behind every point. Proved for the right dimension.')
c('C123','proved',['c123_visitor','c123_unmoved_line','c123_unmoved_top','c123_leaf_line','c123_leaf_top','c123_root','c123_nn_line','c123_knn_line','c123_radius_line','c123_nn_top','c123_knn_top','c123_radius_top','c123_box_line','c123_box_top','c123_false'],'c123_false is the last sentence: a witness that the condition is needed. line are the Euclidean, top the topological trees; the condition is StaysLine, StaysTop, and StaysInLeaf the one on the boxes of the leaves.')
c('C124','partial',['c124_exact_partial','c124_space_partial','c124_rounding_partial','c124_ieee_partial','c124_int_partial','c124_stuck','c124_int_false','c124_float_false'],'False in rounded arithmetic: if the midpoint of a cell is rounded to its lower side, the sliding midpoint rule takes the points on that side away one at a time although they differ (c124_stuck). c124_int_false: the corners of the unit cube with int coordinates; c124_float_false: a sliver of float points with n - 2 levels. Proved: exact arithmetic (any start box, and the bounds of the points), rounding errors that are small compared to s (at most 4 p d levels for float and double), integers that differ by at least 2.')
c('C125','partial',['c125_point_partial','c125_pointer_partial','c125_range_partial','c125_space_partial','c125_space_static_partial','c125_points','c125_coord','c125_mat','c125_range_false','c125_static_false','c125_pointer_false','c125_space_false','c125_mat_false'],'False: two iterators of an empty container dereference the end (c125_range_false), a size other than the one known at compile time is ignored (c125_static_false), without a size or dimension the largest size_t is used (c125_pointer_false, c125_space_false), and a cv::Mat of another type is read at the wrong places (c125_mat_false). Proved for the right sizes, for all memories around the view.')
c('C126','proved',['c126_order','c126_nn','c126_radius'],'Exact arithmetic, any metric that adds up contributions of the axes, any rotations. c126_order holds for every conforming queue; the comparisons need a queue that breaks ties in a fixed way (StdQueue.Ordered), as std::greater on pairs with a pointer does; for forests of different sizes the same way in both.')
c('C127','partial',['c127_contains','c127_contains_box','c127_max_side','c127_fill_partial','c127_fit_partial','c127_fit_box_partial','c127_fit_order_partial','c127_fit_contains_partial','c127_dynamic_partial','c127_make_partial','c127_make_static','c127_moved_static','c127_view','c127_pointers_false','c127_alias_false','c127_same_false','c127_default_false','c127_wrap_false','c127_moved_false'],'False: a point that begins before an end of the box and reaches into it is overwritten while it is read (c127_alias_false), a view may have both ends in the same memory (c127_same_false), the default constructor of a box of run time size always throws (c127_default_false), size * 2 overflows (c127_wrap_false), a view made from two pointers only may have 2^64 - 1 coordinates (c127_pointers_false), and a moved-from box keeps its size without coordinates (c127_moved_false). Proved for ends that do not overlap and any other position of the point, and for sizes that fit.')
c('C128','partial',['c128_defined_partial','c128_holds_partial','c128_freed_partial','c128_lost','c128_assign_moved','c128_swap','c128_assign_false','c128_source_false','c128_dangling_false','c128_self_false'],'False: assignment to an object that holds a tree loses all its chunks (c128_assign_false), the source of a move keeps its pointer to the nodes but has no indices (c128_source_false), the pointer dangles once the new object is destroyed (c128_dangling_false), and a tree assigned to itself is lost (c128_self_false). Proved for all programs that do not read a moved-from object and do not assign a tree to itself: every object that holds a tree is read as that tree, nothing is undefined, exactly the lost chunks are left in the end; std::swap is safe, also with itself.')
c('C129','partial',['c129_nearest','c129_box','c129_save','c129_leaf_ranges_partial','c129_any_memory','c129_nearest_euclidean','c129_nearest_topological','c129_box_euclidean','c129_box_topological','c129_answers_euclidean','c129_answers_topological','c129_empty_leaf_false','c129_source_false','c129_dangling_false'],'Proved for all objects that hold a tree, after any program of builds, loads, moves and destructions: the functions on pointers equal those on trees, and for trees that were built they return the true answers. False: leaf_ranges of a tree with an empty leaf dereferences a null pointer (c129_empty_leaf_false); the source of a move is undefined for every nearest search and leaf_ranges (c129_source_false), and for everything once the new object is destroyed (c129_dangling_false).')
c('C130','proved',['c130_build','c130_others','c130_destroy','c130_move','c130_search','c130_nn','c130_radius','c130_full_false','c130_loop_false','c130_source_false'],'Proved for the variant of the code that is compiled (SIMPLIFIED_NEAREST_ANCESTOR_COVER_TREE), for all runs of the construction that finish (C50 says which do). About the limits: a full buffer that allocates leaves all pointers dangling (c130_full_false), so the room reserved is needed; the source of a move keeps a pointer that dangles once the new object is gone (c130_source_false).')
c('C131','proved',['c131_height','c131_depth','c131_degree','c131_degree_l1','c131_degree_lpinf','c131_degree_l2','c131_nn'],'Proved for bases of at least two, with exact arithmetic and exact logarithms (for base 1.3 C66 is false and nothing is claimed). The height is in terms of the smallest distance, so it needs distinct points.')
c('C132','proved',['c132_type','c132_new','c132_search','c132_output','c132_slice','c132_item','c132_iter','c132_view','c132_reuse','c132_write','c132_del','c132_safe','c132_data','c132_null_false'],'Fewer than 2^63 elements for slices and indices. In C++ a darray without contents (default constructed or moved from) is reported by data() but makes size(), dtype() and the others undefined (c132_null_false); no Python program has such an object.')
c('C133','proved',['c133_defined','c133_freed','c133_search','c133_empty','c133_move','c133_nn','c133_budget','c133_short_false'],'The memory of the vector of trees, of the points and of the rotated points is not modelled. At least one point and a leaf size the index type can hold. The answers (c133_nn, c133_budget) are in exact arithmetic. A forest assigned to itself is empty afterwards, as in libstdc++. Queries with too few scalars are read beyond their end (c133_short_false).')
c('C134','proved',['c134_euclidean','c134_topological','c134_one_dim','c134_box','c134_box_topological','c134_rounding'],'Hypotheses as in C01, for each of the trees. c134_rounding: with rounding in the plane a part can find a nearer neighbor than the whole tree, so the arithmetic is exact except in one dimension and for boxes.')
c('C135','proved',['c135_l1','c135_nn_l1','c135_l2','c135_nn_l2','c135_so2','c135_se2','c135_lpinf'],'Hypotheses as in C01 for both queries. Follow is without roots, c135_nn_l2 is the version with roots over the real numbers. c135_lpinf: with metric_lpinf, which is pruned wrongly (C12), the distances do jump.')
c('C136','proved',['c136_array_of_scalars','c136_array_of_points','c136_dynamic_arrays','c136_minimal','c136_creation','c136_save_and_load','c136_custom_space','c136_every_point_a_leaf','c136_single_leaf','c136_python'],'Binary32 and binary64 arithmetic with rounding to nearest. Output of times and texts is not modelled. c136_save_and_load: a platform whose encodings represent the numbers 0 to 9 and the limits of float; that the file can be opened is assumed as in C28.')
c('C137','proved',['c137_euclidean','c137_topological','c137_l1','c137_l2','c137_lp','c137_so2','c137_se2','c137_t2'],'Hypotheses as in C01 and C10. The lengths are the distances of Mathlib (PiLp, UnitAddCircle, WithLp of a product), not definitions of this project. Exact arithmetic.')
c('C138','proved',['c138_knn_genuine','c138_radius_genuine','c138_self','c138_knn_grid','c138_radius_grid','c138_knn_line','c138_radius_line','c138_knn_close','c138_radius_close'],'Calls without a ratio. Coordinates are in the range of the type; distances are below its largest value where k neighbors are claimed. c138_knn_close and c138_radius_close with Metric.L2Squared: no square of a coordinate difference underflows. Metric.LPInf only in the genuine and self theorems (C119 is false for it).')
c('C139','proved',['c139_search_s1','c139_search_t2','c139_search_lp3','c139_visited','c139_search_r3'],'Binary32 with rounding to nearest. The random points are arguments with coordinates between the borders. std::pow is a function that is monotone and nonnegative on nonnegative numbers with pow(10) at most 2000. The factor 1.15 comes from the height of a tree of 2^20 points (at most 2^20 - 1). For search_r3 the approximate neighbors are compared by their own distances: 36/25 from the ratio, 1.15 from the tree, and the rounded scaling give 5/3 for squared distances; no underflow, because the coordinates of the query are near 31.5. The number of runs is arbitrary. Output of times and texts is not modelled.')
c('C140','proved',['c140_nn_genuine','c140_knn_genuine','c140_radius_genuine','c140_py_knn_genuine','c140_py_radius_genuine','c140_py_knn_close','c140_py_radius_close','c140_py_ratio'],'Genuine part: entries whose stored distance is the largest value carry no meaning, as in C44. Rounded part: coordinates in the range of the type, distances below its largest value up to the factor, 1 is represented. c140_py_ratio: no underflow in the inverse of the ratio and in the scaled distances. Metric.LPInf only in the genuine part.')
c('C141','proved',['c141_static','c141_dynamic','c141_other_dimension','c141_unique','c141_float','c141_python'],'The scalar type is one whose values correspond to byte patterns (bits, so that +0 and -0 differ); integers of every width are shown to be such. Files whose bytes are not values of the types (a bool of 2, a negative index, a split dimension outside of the dimension) do not load in the model. c141_unique for run time dimensions.')
c('C142','proved',['c142_circle','c142_seam','c142_float','c142_relative_false'],'Rounded arithmetic with gradual underflow, 1 is representable and below numeric_limits::max(); the build finished. shortArc_shortest: the arc is the smallest distance between numbers that stand for the two angles.')
c('C143','proved',['c143_l1','c143_l2','c143_scalar','c143_box','c143_wraps_false','c143_unsigned_false','c143_unsigned_radius_false'],'Model/Narrow: promoted operands, conversion modulo a power of two where a scalar is stored. The build finished and the bounding box is taken from the points. The last three theorems show that the assumption on distances is needed and that unsigned int does not work.')
c('C144','proved',['c144_one','c144_radius_empty','c144_nn_zero','c144_knn_zero','c144_ratio_false'],'MachineInt with integer division; e = 0 is a division by zero and excluded, negative ratios are not considered. numeric_limits::max() is the largest value of the type.')
c('C145','proved',['c145_tree','c145_search','c145_nn','c145_nn_point','c145_radius','c145_knn','c145_nn_approx','c145_radius_approx','c145_knn_approx','c145_ties_false'],'No law of arithmetic is used, so that it holds for floats without NaN. search_knn needs computed distances below numeric_limits::max(). c145_ties_false is the negation for points that share a coordinate.')
c('C146','proved',['c146_files','c146_tree','c146_knn','c146_knn_empty','c146_box','c146_box_rounded','c146_box_beyond','c146_radius','c146_radius_le','c146_cover'],'One run of the measured loop; sums are modulo 2^64. In rounded arithmetic the radius benchmark counts at most the pairs whose computed distance is below the computed square (c146_radius_le). dynamic_space is modelled in C151; not modelled are nanoflann and the OpenCV flann benchmarks.')
c('C147','proved',['c147_build','c147_points','c147_exact','c147_short_false','c147_value_false','c147_kept'],'std::nth_element is taken to read every point of its range, also a range of one. A standard library that calls the comparator for elements outside of the range is excluded in c147_points and c147_kept (Std.Local, as in C79).')
c('C148','partial',['c148_radius','c148_knn','c148_tests','c148_hang_false','c148_border_false'],'False for two runs that are possible: a point at the distance 2.5 fails the radius test (c148_border_false with c148_radius), coinciding points that are inserted first never end (c148_hang_false). Proved for all others, in exact arithmetic; distances below numeric_limits::max(). The move of the tree in the test is C130.')
c('C149','proved',['c149_nn','c149_radius','c149_nn_l1','c149_nn_l2','c149_radius_l1','c149_line','c149_midpoint_false','c149_circle','c149_circle_midpoint_false','c149_line_others_false'],'Exact ordered-field arithmetic. The trees of the first part have two points and are built with the sliding midpoint rule with given bounds. c149_midpoint_false: an empty cell next to the query, an error of 5 with the ratio 6. c149_circle, c149_circle_midpoint_false: the same for metric_so2. c149_line_others_false: k nearest neighbors and radius searches lose points on a line already.')
c('C150','proved',['c150_match','c150_category','c150_shows','c150_plots','c150_label','c150_label_false','c150_box','c150_name_false'],'The regular expressions are modelled with the order in which re tries its matches. \\d is an ASCII digit, float() of it the exact number, the cpu times are of any type. matplotlib is not modelled. Suffixes of the benchmark library: none, _mean, _median, _stddev, _cv.')
c('C151','proved',['c151_types','c151_made','c151_new','c151_shared','c151_follows','c151_stale_false'],'Space types with traits of their own are one definition: a compile time dimension, and coordinates one point after the other. A call compiles if the argument has the type of the parameter or one conversion operator leads there; converting constructors are not modelled. c151_stale_false is the part of the statement about a changed dimension.')
c('C152','proved',['c152_check','c152_refl','c152_eigen','c152_opencv','c152_vector','c152_map','c152_blind_false','c152_self_false'],'The static assertions of the tests are not modelled. GoogleTest as in the other claims about tests, following its documentation. The references of the vector test lead to the same object. c152_blind_false and c152_self_false are the parts of the statement about what is not noticed.')
