import Verif.Props.Nearest
import Verif.Props.TopoApprox
import Verif.Props.Builder
import Verif.Props.Midpoint
import Verif.Props.Box
import Verif.Props.Infinity
import Verif.Props.Query
import Verif.Props.MetricLaws
import Verif.Props.Rounding
import Verif.Proof.Grid
import Verif.Props.Grid
import Verif.Proof.TopoRounding
import Verif.Props.TopoRounding
import Verif.Model.MachineInt
import Verif.Model.Narrow
import Verif.Props.MachineInt
import Verif.Props.Stream
import Verif.Props.Segment
import Verif.Props.Memory
import Verif.Props.DArray
import Verif.Props.Array
import Verif.Props.Python
import Verif.Props.Lifetime
import Verif.Proof.CoverInv
import Verif.Props.Cover
import Verif.Props.CoverInv
import Verif.Props.Forest
import Verif.Proof.Work
import Verif.Props.Work
import Verif.SpecFormats
import Verif.Model.Formats
import Verif.Proof.Formats
import Verif.Props.Formats
import Verif.Proof.Frame
import Verif.Props.Frame
import Verif.Model.Float
import Verif.Proof.Nan
import Verif.Props.Nan
import Verif.Proof.Embed
import Verif.Proof.Ext
import Verif.Props.Overflow
import Verif.Proof.Saturate
import Verif.Props.Saturate
import Verif.Props.TopoError
import Verif.Props.TrueDistance
import Verif.Model.Eigen
import Verif.Model.Matrix
import Verif.Model.Counter
import Verif.Props.Eigen
import Verif.Props.Matrix
import Verif.Props.Counter
import Verif.Props.Lookup
import Verif.Props.Consistent
import Verif.Props.ApproxError
import Verif.Props.IndexType
import Verif.Props.MidpointFloat
import Verif.Props.MidpointInt
import Verif.Proof.LowFinal
import Verif.Props.CoverRounding
import Verif.Props.Ratio
import Verif.Proof.ForestRounding
import Verif.Proof.RotationError
import Verif.Props.ForestRounding
import Verif.Proof.GridNear
import Verif.Props.GridNear
import Verif.Model.ForestExample
import Verif.Props.ForestExample
import Verif.Model.TestHelpers
import Verif.Props.TestHelpers
import Verif.Proof.Looked
import Verif.Props.Looked
import Verif.Proof.Cells
import Verif.Props.Cells
import Verif.Model.CoverRegular
import Verif.Proof.CoverRegular
import Verif.Props.CoverRegular
import Verif.Proof.BoxRead
import Verif.Props.BoxRead
import Verif.Props.BoxWork
import Verif.Proof.Similar
import Verif.Props.Similar
import Verif.Model.Uosr
import Verif.Proof.Near
import Verif.Props.Uosr
import Verif.Props.Ascii
import Verif.Props.Sizes
import Verif.Model.Gtest
import Verif.Props.UnitTests
import Verif.Proof.Scale
import Verif.Props.Scale
import Verif.Model.Faulty
import Verif.Proof.Faulty
import Verif.Props.Faulty
import Verif.Model.Exhausted
import Verif.Proof.Exhausted
import Verif.Props.Exhausted
import Verif.Props.Isometry
import Verif.Props.OtherMetric
import Verif.Props.SearchWork
import Verif.Props.FarQuery
import Verif.Props.Dispatch
import Verif.Props.PyCount
import Verif.Model.PyTree
import Verif.Proof.PyTree
import Verif.Props.PyTree
import Verif.Props.PyFile
import Verif.Props.Reads
import Verif.Props.MetricDim
import Verif.Props.Moved
import Verif.Proof.Spread
import Verif.Props.Spread
import Verif.Model.View
import Verif.Props.View
import Verif.Model.ForestOrder
import Verif.Proof.ForestOrder
import Verif.Props.ForestOrder
import Verif.Model.BoxMem
import Verif.Proof.BoxMem
import Verif.Props.BoxMem
import Verif.Model.TreeObj
import Verif.SpecTreeObj
import Verif.Proof.TreeObj
import Verif.Props.TreeObj
import Verif.Model.Walk
import Verif.Proof.Walk
import Verif.Props.Walk
import Verif.Model.CoverMem
import Verif.SpecCoverMem
import Verif.Proof.CoverMem
import Verif.Proof.CoverMemBuild
import Verif.Proof.CoverMemMake
import Verif.Props.CoverMem
import Verif.SpecCoverShape
import Verif.Proof.CoverShape
import Verif.Props.CoverShape
import Verif.Model.DArrayObj
import Verif.SpecDArrayObj
import Verif.Proof.DArrayObj
import Verif.Props.DArrayObj
import Verif.Props.DArrayKeep
import Verif.Model.ForestMem
import Verif.SpecForestMem
import Verif.Proof.ForestMem
import Verif.Proof.ForestObj
import Verif.Props.ForestMem
import Verif.SpecMerge
import Verif.Proof.Merge
import Verif.Props.Merge
import Verif.Props.Lipschitz
import Verif.Model.Examples
import Verif.Props.Stored
import Verif.Props.Examples
import Verif.Props.Lengths
import Verif.Props.PyFloat
import Verif.Model.ExampleSearch
import Verif.Props.ExampleSearch
import Verif.Props.PyApprox
import Verif.Props.Canonical
import Verif.Props.CircleError
import Verif.Props.Narrow
import Verif.Props.IntApprox
import Verif.Proof.PointOrder
import Verif.Props.PointOrder
import Verif.Model.Benchmark
import Verif.Props.Benchmark
import Verif.Model.BuildReads
import Verif.Props.BuildReads
import Verif.Model.CoverTest
import Verif.Props.CoverTest
import Verif.Props.MaxNormTight
import Verif.Props.ApproxTight
import Verif.Props.ApproxCircle
import Verif.Model.Plot
import Verif.Props.Plot
import Verif.Model.DynamicSpace
import Verif.Props.DynamicSpace
import Verif.Model.AdaptorTest
import Verif.Props.AdaptorTest
import Verif.Props.ExampleSpace

/-! # Axioms each claimed theorem depends on (printed during the build) -/

-- C01 (proved)
#print axioms Pico.Props.c01_nn_l1
#print axioms Pico.Props.c01_nn_l2
-- C02 (proved)
#print axioms Pico.Props.c02_knn_l1
#print axioms Pico.Props.c02_knn_l2
-- C03 (partial)
#print axioms Pico.Props.c03_range_partial
#print axioms Pico.Props.c03_range_topological_partial
#print axioms Pico.Props.c03_false
-- C04 (proved)
#print axioms Pico.Props.c04_radius_l1
#print axioms Pico.Props.c04_radius_l2
-- C05 (proved)
#print axioms Pico.Props.c05_nn_approx
#print axioms Pico.Props.c05_nn_approx_l1
#print axioms Pico.Props.c05_nn_approx_l2
-- C06 (proved)
#print axioms Pico.Props.c06_knn_approx
#print axioms Pico.Props.c06_knn_approx_l1
#print axioms Pico.Props.c06_knn_approx_l2
-- C07 (proved)
#print axioms Pico.Props.c07_radius_approx
#print axioms Pico.Props.c07_radius_approx_l1
#print axioms Pico.Props.c07_radius_approx_l2
-- C08 (proved)
#print axioms Pico.Props.c08_box
#print axioms Pico.Props.c08_box_order
#print axioms Pico.Props.c08_box_inverted
-- C09 (proved)
#print axioms Pico.Props.c09_box
#print axioms Pico.Props.c09_box_so2
#print axioms Pico.Props.c09_box_se2
-- C10 (proved)
#print axioms Pico.Props.c10_nn_so2
#print axioms Pico.Props.c10_knn_so2
#print axioms Pico.Props.c10_radius_so2
-- C11 (proved)
#print axioms Pico.Props.c11_nn_se2
#print axioms Pico.Props.c11_knn_se2
#print axioms Pico.Props.c11_radius_se2
-- C12 (partial)
#print axioms Pico.Props.c12_distance
#print axioms Pico.Props.c12_nn_partial
#print axioms Pico.Props.c12_knn_partial
#print axioms Pico.Props.c12_radius_partial
#print axioms Pico.Props.c12_one_dim_partial
#print axioms Pico.Props.c12_false
#print axioms Pico.Props.c12_tight
-- C13 (partial)
#print axioms Pico.Props.c13_distance
#print axioms Pico.Props.c13_nn_partial
#print axioms Pico.Props.c13_knn_partial
#print axioms Pico.Props.c13_radius_partial
#print axioms Pico.Props.c13_one_dim_partial
#print axioms Pico.Props.c13_false
#print axioms Pico.Props.c13_unbounded
-- C14 (proved)
#print axioms Pico.Props.c14_visitor_contract
#print axioms Pico.Props.c14_visitor_all_points
-- C15 (proved)
#print axioms Pico.Props.c15_nn_euclidean
#print axioms Pico.Props.c15_knn_euclidean
#print axioms Pico.Props.c15_radius_euclidean
#print axioms Pico.Props.c15_nn_topological
#print axioms Pico.Props.c15_knn_topological
#print axioms Pico.Props.c15_radius_topological
#print axioms Pico.Props.c15_lp_euclidean
#print axioms Pico.Props.c15_torus_topological
-- C16 (proved)
#print axioms Pico.Props.c16_partition
#print axioms Pico.Props.c16_exactly_once
-- C17 (partial)
#print axioms Pico.Props.c17_leaf_ranges_partial
#print axioms Pico.Props.c17_characterisation
#print axioms Pico.Props.c17_false
-- C18 (partial)
#print axioms Pico.Props.c18_leaf_size_partial
#print axioms Pico.Props.c18_single_leaf_partial
#print axioms Pico.Props.c18_false
-- C19 (partial)
#print axioms Pico.Props.c19_leaf_depth_partial
#print axioms Pico.Props.c19_false
-- C20 (proved)
#print axioms Pico.Props.c20_nonempty
-- C21 (partial)
#print axioms Pico.Props.c21_balanced
#print axioms Pico.Props.c21_height_partial
#print axioms Pico.Props.c21_false
-- C22 (partial)
#print axioms Pico.Props.c22_terminates_partial
#print axioms Pico.Props.c22_terminates_depth_partial
#print axioms Pico.Props.splitSafe_field
#print axioms Pico.Props.splitSafe_int
#print axioms Pico.Props.splitSafe_rounding
#print axioms Pico.Props.c18_false
-- C23 (partial)
#print axioms Pico.Props.c23_midpoint_partial
#print axioms Pico.Props.c23_rounding_partial
#print axioms Pico.Props.c23_ieee_partial
#print axioms Pico.Props.c23_false
#print axioms Pico.Props.c23_stuck_false
#print axioms Pico.Props.c23_float_false
#print axioms Pico.Props.c23_int_false
-- C24 (proved)
#print axioms Pico.Props.c24_euclidean
#print axioms Pico.Props.c24_topological
#print axioms Pico.Props.c24_box
#print axioms Pico.Props.c24_box_topological
-- C25 (partial)
#print axioms Pico.Props.c25_nearest_partial
#print axioms Pico.Props.c25_box_superset_partial
#print axioms Pico.Props.c25_box_superset_topological_partial
#print axioms Pico.Props.c25_box_false
#print axioms Pico.Props.c25_so2_false
-- C26 (proved)
#print axioms Pico.Props.c26_nn
#print axioms Pico.Props.c26_knn_any
#print axioms Pico.Props.c26_knn
#print axioms Pico.Props.c26_knn_topological
#print axioms Pico.Props.c26_radius
#print axioms Pico.Props.c26_box
-- C27 (partial)
#print axioms Pico.Props.c27_false
#print axioms Pico.Props.c27_defined_partial
-- C28 (proved)
#print axioms Pico.Props.c28_roundtrip
#print axioms Pico.Props.c28_roundtrip_dynamic
#print axioms Pico.Props.c28_built
#print axioms Pico.Props.c28_built_topological
#print axioms Pico.Props.c28_coordinates
#print axioms Pico.Props.c28_coordinates_topological
-- C29 (proved)
#print axioms Pico.Props.c29_sequence
#print axioms Pico.Props.c29_prefix
#print axioms Pico.Props.c29_prefix_dynamic
-- C30 (proved)
#print axioms Pico.Props.c30_accepts_iff
#print axioms Pico.Props.c30_rejects
#print axioms Pico.Props.c30_written
#print axioms Pico.Props.c30_roundtrip
-- C31 (partial)
#print axioms Pico.Props.c31_no_alias_partial
#print axioms Pico.Props.c31_freed_partial
#print axioms Pico.Props.c31_ends
#print axioms Pico.Props.c31_held_twice
#print axioms Pico.Props.c31_false
-- C32 (partial)
#print axioms Pico.Props.c31_no_alias_partial
#print axioms Pico.Props.c31_freed_partial
#print axioms Pico.Props.c32_false
#print axioms Pico.Props.c32_self_false
#print axioms Pico.Props.c32_alias_false
-- C33 (proved)
#print axioms Pico.Props.c33_knn
#print axioms Pico.Props.c33_radius
#print axioms Pico.Props.c33_radius_approx
#print axioms Pico.Props.c33_knn_schedule
#print axioms Pico.Props.c33_programs
#print axioms Pico.Props.c33_cells_schedule
#print axioms Pico.Props.c33_radius_step
#print axioms Pico.Props.c33_box_step
-- C34 (partial)
#print axioms Pico.Props.c34_partial
#print axioms Pico.Props.c34_false
#print axioms Pico.Props.c34_zero_false
-- C35 (partial)
#print axioms Pico.Props.c35_new_partial
#print axioms Pico.Props.c35_one_partial
#print axioms Pico.Props.c35_given_partial
#print axioms Pico.Props.c35_resized_partial
#print axioms Pico.Props.c35_order_false
#print axioms Pico.Props.c35_shape_false
#print axioms Pico.Props.c35_strided_false
#print axioms Pico.Props.c35_reversed_false
-- C36 (proved)
#print axioms Pico.Props.c36_index
#print axioms Pico.Props.c36_slice
#print axioms Pico.Props.c36_slice_step
-- C37 (proved)
#print axioms Pico.Props.c37_pairs
#print axioms Pico.Props.c37_odd
#print axioms Pico.Props.c37_exact
-- C38 (partial)
#print axioms Pico.Props.c38_accept
#print axioms Pico.Props.c38_view
#print axioms Pico.Props.c38_metric
#print axioms Pico.Props.c38_mat_partial
#print axioms Pico.Props.c38_false
#print axioms Pico.Props.c38_mat_false
-- C39 (partial)
#print axioms Pico.Props.c39_partial
#print axioms Pico.Props.c39_false
-- C40 (proved)
#print axioms Pico.Props.c40_euclidean
#print axioms Pico.Props.c40_topological
#print axioms Pico.Props.c40_box
-- C41 (proved)
#print axioms Pico.Props.c41_l1
#print axioms Pico.Props.c41_lpinf
#print axioms Pico.Props.c41_so2
#print axioms Pico.Props.c41_l2_squared
#print axioms Pico.Props.c41_se2_squared
#print axioms Pico.Props.c41_scalar
#print axioms Pico.Props.c41_scalar_circle
#print axioms Pico.Props.c41_scalar_se2
-- C42 (proved)
#print axioms Pico.Props.c42_cells
-- C43 (proved)
#print axioms Pico.Props.c43_z_order
#print axioms Pico.Props.c43_digits
-- C44 (partial)
#print axioms Pico.Props.c44_nn_partial
#print axioms Pico.Props.c44_nn_untouched
#print axioms Pico.Props.c44_knn_range_partial
#print axioms Pico.Props.c44_knn_partial
#print axioms Pico.Props.c44_radius
#print axioms Pico.Props.c44_false
-- C45 (proved)
#print axioms Pico.Props.c45_l1
#print axioms Pico.Props.c45_l2
-- C46 (partial)
#print axioms Pico.Props.c46_false
#print axioms Pico.Props.c46_representable
#print axioms Pico.Props.c46_nn_partial
#print axioms Pico.Props.c46_knn_partial
#print axioms Pico.Props.c46_radius_partial
#print axioms Pico.Props.c46_ieee_partial
-- C47 (partial)
#print axioms Pico.Props.c47_budget
#print axioms Pico.Props.c47_sound_partial
#print axioms Pico.Props.c47_exact
#print axioms Pico.Props.c47_exact_points
#print axioms Pico.Props.c47_terminates
#print axioms Pico.Props.c47_zero
#print axioms Pico.Props.c47_zero_false
-- C48 (proved)
#print axioms Pico.Props.c48_nn
#print axioms Pico.Props.c48_knn
#print axioms Pico.Props.c48_radius
#print axioms Pico.Props.c48_nn_approx
#print axioms Pico.Props.c48_knn_approx
#print axioms Pico.Props.c48_radius_approx
#print axioms Pico.Props.c48_l1
#print axioms Pico.Props.c48_lpinf
#print axioms Pico.Props.c48_l2
#print axioms Pico.Props.c48_squared_false
-- C49 (proved)
#print axioms Pico.Props.c49
#print axioms Pico.Props.c49_max_distance
-- C50 (partial)
#print axioms Pico.Props.c50_iff
#print axioms Pico.Props.c50_partial
#print axioms Pico.Props.c50_false
-- C51 (proved)
#print axioms Pico.Props.c51_load_terminates
#print axioms Pico.Props.c51_load_terminates_dynamic
#print axioms Pico.Props.c51_load_local
-- C52 (proved)
#print axioms Pico.Props.c52_segment_r1
#print axioms Pico.Props.c52_contains_s1
#print axioms Pico.Props.c52_segment_s1
-- C53 (proved)
#print axioms Pico.Props.c53_contains_r1
#print axioms Pico.Props.c53_contains_s1
-- C54 (partial)
#print axioms Pico.Props.c54_false
#print axioms Pico.Props.c54_dimension_partial
-- C55 (proved)
#print axioms Pico.Props.c55_build
#print axioms Pico.Props.c55_build_fails
#print axioms Pico.Props.c55_load
-- C56 (proved)
#print axioms Pico.Props.c56_request
-- C57 (partial)
#print axioms Pico.Props.c57_partial
#print axioms Pico.Props.c57_false
-- C58 (partial)
#print axioms Pico.Props.c58_constructor
#print axioms Pico.Props.c58_partial
#print axioms Pico.Props.c58_false
-- C59 (partial)
#print axioms Pico.Props.c59_item
#print axioms Pico.Props.c59_partial
#print axioms Pico.Props.c59_item_partial
#print axioms Pico.Props.c59_iter_false
#print axioms Pico.Props.c59_reuse_false
#print axioms Pico.Props.c59_shrink_false
-- C60 (proved)
#print axioms Pico.Props.c60_knn
#print axioms Pico.Props.c60_radius
#print axioms Pico.Props.c60_box
-- C61 (partial)
#print axioms Pico.Props.c61_partial
#print axioms Pico.Props.c61_knn_partial
#print axioms Pico.Props.c61_count_partial
#print axioms Pico.Props.c61_false
-- C62 (proved)
#print axioms Pico.Props.c62_isometry
#print axioms Pico.Props.c62_involution
#print axioms Pico.Props.c62_normalize
#print axioms Pico.Props.c62_drawn
-- C63 (partial)
#print axioms Pico.Props.c63_partial
#print axioms Pico.Props.c63_false
-- C64 (proved)
#print axioms Pico.Props.c64_nn_approx_so2
#print axioms Pico.Props.c64_knn_approx_so2
#print axioms Pico.Props.c64_radius_approx_so2
#print axioms Pico.Props.c64_visitor_so2
#print axioms Pico.Props.c64_nn_approx_se2
#print axioms Pico.Props.c64_knn_approx_se2
#print axioms Pico.Props.c64_radius_approx_se2
#print axioms Pico.Props.c64_visitor_se2
-- C65 (proved)
#print axioms Pico.Props.c65
-- C66 (partial)
#print axioms Pico.Props.c66_partial
#print axioms Pico.Props.c66_max_distance_partial
#print axioms Pico.Props.c66_l2_partial
#print axioms Pico.Props.c66_false
-- C67 (partial)
#print axioms Pico.Props.c67_partial
#print axioms Pico.Props.c67_false
-- C68 (proved)
#print axioms Pico.Props.c68_l1
#print axioms Pico.Props.c68_l2
#print axioms Pico.Props.c68_ieee
-- C69 (proved)
#print axioms Pico.Props.c69_l1
#print axioms Pico.Props.c69_l2
#print axioms Pico.Props.c69_overflow
-- C70 (proved)
#print axioms Pico.Props.c70_so2
-- C71 (proved)
#print axioms Pico.Props.c71_se2
#print axioms Pico.Props.c71_t2
-- C72 (partial)
#print axioms Pico.Props.c72_median_partial
#print axioms Pico.Props.c72_sliding_partial
#print axioms Pico.Props.c72_duplicates
#print axioms Pico.Props.c72_false
-- C73 (proved)
#print axioms Pico.Props.c73_big_endian
#print axioms Pico.Props.c73_all_bytes
#print axioms Pico.Props.c73_swap
#print axioms Pico.Props.c73_agree
-- C74 (partial)
#print axioms Pico.Props.c74_round_trip_partial
#print axioms Pico.Props.c74_all_elements
#print axioms Pico.Props.c74_stale
#print axioms Pico.Props.c74_false
-- C75 (partial)
#print axioms Pico.Props.c75_images_partial
#print axioms Pico.Props.c75_labels_partial
#print axioms Pico.Props.c75_shapes
#print axioms Pico.Props.c75_accepts
#print axioms Pico.Props.c75_undefined
#print axioms Pico.Props.c75_magic
#print axioms Pico.Props.c75_false
#print axioms Pico.Props.c75_overflow
#print axioms Pico.Props.c75_short
-- C76 (partial)
#print axioms Pico.Props.c76_name
#print axioms Pico.Props.c76_read_partial
#print axioms Pico.Props.c76_accepts_everything
#print axioms Pico.Props.c76_false
-- C77 (proved)
#print axioms Pico.Props.c77_euler
#print axioms Pico.Props.c77_isometry
#print axioms Pico.Props.c77_orientation
#print axioms Pico.Props.c77_real
-- C78 (partial)
#print axioms Pico.Props.c78_line_partial
#print axioms Pico.Props.c78_two
#print axioms Pico.Props.c78_blank
#print axioms Pico.Props.c78_lines
#print axioms Pico.Props.c78_points
#print axioms Pico.Props.c78_false
-- C79 (proved)
#print axioms Pico.Props.c79_visitor
#print axioms Pico.Props.c79_box
#print axioms Pico.Props.c79_build
#print axioms Pico.Props.c79_answers
#print axioms Pico.Props.c79_later
-- C80 (partial)
#print axioms Pico.Props.c80_accepts
#print axioms Pico.Props.c80_outside
#print axioms Pico.Props.c80_same_partial
#print axioms Pico.Props.c80_false
-- C81 (partial)
#print axioms Pico.Props.c81_nn
#print axioms Pico.Props.c81_knn
#print axioms Pico.Props.c81_radius
#print axioms Pico.Props.c81_metrics
#print axioms Pico.Props.c81_nn_partial
#print axioms Pico.Props.c81_knn_partial
#print axioms Pico.Props.c81_radius_partial
#print axioms Pico.Props.c81_false
-- C82 (partial)
#print axioms Pico.Props.c82_query_partial
#print axioms Pico.Props.c82_radius_partial
#print axioms Pico.Props.c82_false
-- C83 (partial)
#print axioms Pico.Props.c83_partition_partial
#print axioms Pico.Props.c83_build_partial
#print axioms Pico.Props.c83_box_partial
#print axioms Pico.Props.c83_box_topological_partial
#print axioms Pico.Props.c83_false
#print axioms Pico.Props.c83_false_case
#print axioms Pico.Props.c83_inf_false
-- C84 (partial)
#print axioms Pico.Props.c84_partial
#print axioms Pico.Props.c84_one_dim_partial
#print axioms Pico.Props.c84_error_partial
#print axioms Pico.Props.c84_false
-- C85 (proved)
#print axioms Pico.Props.c85_nn
#print axioms Pico.Props.c85_knn
#print axioms Pico.Props.c85_radius
#print axioms Pico.Props.c85_ieee
-- C86 (proved)
#print axioms Pico.Props.c86_l1
#print axioms Pico.Props.c86_l2
#print axioms Pico.Props.c86_ieee
-- C87 (partial)
#print axioms Pico.Props.c87_space_partial
#print axioms Pico.Props.c87_owned
#print axioms Pico.Props.c87_point_partial
#print axioms Pico.Props.c87_block_partial
#print axioms Pico.Props.c87_space_false
#print axioms Pico.Props.c87_point_false
#print axioms Pico.Props.c87_block_false
-- C88 (proved)
#print axioms Pico.Props.c88_point
#print axioms Pico.Props.c88_space
-- C89 (proved)
#print axioms Pico.Props.c89_result
#print axioms Pico.Props.c89_count
#print axioms Pico.Props.c89_lower
-- C90 (proved)
#print axioms Pico.Props.c90_l1
#print axioms Pico.Props.c90_l2
#print axioms Pico.Props.c90_lpinf
#print axioms Pico.Props.c90_lninf
#print axioms Pico.Props.c90_topological
#print axioms Pico.Props.c90_l2_other
-- C91 (proved)
#print axioms Pico.Props.c91_one_range
#print axioms Pico.Props.c91_one
#print axioms Pico.Props.c91_ratio_one
#print axioms Pico.Props.c91_ratio_float
#print axioms Pico.Props.c91_radius
#print axioms Pico.Props.c91_euclidean
#print axioms Pico.Props.c91_topological
#print axioms Pico.Props.c91_one_dim
#print axioms Pico.Props.c91_rounding
-- C92 (proved)
#print axioms Pico.Props.c92_euclidean
#print axioms Pico.Props.c92_topological
#print axioms Pico.Props.c92_ratio
#print axioms Pico.Props.c92_ieee
-- C93 (partial)
#print axioms Pico.Props.c93_partial
#print axioms Pico.Props.c93_depth_partial
#print axioms Pico.Props.c93_narrow
#print axioms Pico.Props.c93_false
#print axioms Pico.Props.c93_wrap
-- C94 (partial)
#print axioms Pico.Props.c94_partial
#print axioms Pico.Props.c94_l1_partial
#print axioms Pico.Props.c94_l2_partial
#print axioms Pico.Props.c94_false
-- C95 (partial)
#print axioms Pico.Props.c95_partial
#print axioms Pico.Props.c95_topological_partial
#print axioms Pico.Props.c95_nothing
#print axioms Pico.Props.c95_infinite
#print axioms Pico.Props.c95_false
#print axioms Pico.Props.c95_infinite_false
-- C96 (partial)
#print axioms Pico.Props.c96_partial
#print axioms Pico.Props.c96_float_partial
#print axioms Pico.Props.c96_computed_partial
#print axioms Pico.Props.c96_normalize
#print axioms Pico.Props.c96_false
-- C97 (proved)
#print axioms Pico.Props.c97_l1
#print axioms Pico.Props.c97_l2
#print axioms Pico.Props.c97_ieee
#print axioms Pico.Props.c97_float
#print axioms Pico.Props.c97_limit
-- C98 (partial)
#print axioms Pico.Props.c98_partial
#print axioms Pico.Props.c98_one_partial
#print axioms Pico.Props.c98_stale
#print axioms Pico.Props.c98_second_run
#print axioms Pico.Props.c98_rerun_false
#print axioms Pico.Props.c98_false
-- C99 (partial)
#print axioms Pico.Props.c99_box_partial
#print axioms Pico.Props.c99_box_false
#print axioms Pico.Props.c99_box_tree
#print axioms Pico.Props.c99_radius_partial
#print axioms Pico.Props.c99_radius_right
#print axioms Pico.Props.c99_radius_tree
#print axioms Pico.Props.c99_radius_false
#print axioms Pico.Props.c99_reference
#print axioms Pico.Props.c99_reference_false
#print axioms Pico.Props.c99_knn_partial
#print axioms Pico.Props.c99_knn_false
#print axioms Pico.Props.c99_box_outside
#print axioms Pico.Props.c99_radius_outside
#print axioms Pico.Props.c99_knn_short_false
#print axioms Pico.Props.c99_knn_right
#print axioms Pico.Props.c99_knn_tree
-- C100 (proved)
#print axioms Pico.Props.c100_answer
#print axioms Pico.Props.c100_euclidean
#print axioms Pico.Props.c100_topological
-- C101 (partial)
#print axioms Pico.Props.c101_false
#print axioms Pico.Props.c100_euclidean
#print axioms Pico.Props.c100_topological
-- C102 (proved)
#print axioms Pico.Props.c102_opened
#print axioms Pico.Props.c102_reached
#print axioms Pico.Props.c102_radius
#print axioms Pico.Props.c102_nn
-- C103 (partial)
#print axioms Pico.Props.c103_partial
#print axioms Pico.Props.c103_nn_partial
#print axioms Pico.Props.c103_knn_partial
#print axioms Pico.Props.c103_radius_partial
#print axioms Pico.Props.c103_root_partial
#print axioms Pico.Props.c103_false
#print axioms Pico.Props.c103_levels_false
#print axioms Pico.Props.c103_covers_false
#print axioms Pico.Props.c103_apart_false
-- C104 (proved)
#print axioms Pico.Props.c104
#print axioms Pico.Props.c104_leaf
-- C105 (partial)
#print axioms Pico.Props.c105_line_partial
#print axioms Pico.Props.c105_line_count_partial
#print axioms Pico.Props.c105_topological_false
#print axioms Pico.Props.c105_all_false
#print axioms Pico.Props.c105_false
-- C106 (proved)
#print axioms Pico.Props.c106_tree_euclidean
#print axioms Pico.Props.c106_tree_topological
#print axioms Pico.Props.c106_search
#print axioms Pico.Props.c106_l1
#print axioms Pico.Props.c106_l2
#print axioms Pico.Props.c106_approx
#print axioms Pico.Props.c106_approx_l2
#print axioms Pico.Props.c106_box
#print axioms Pico.Props.c106_se2
#print axioms Pico.Props.c106_reflect_false
#print axioms Pico.Props.c106_int_false
-- C107 (partial)
#print axioms Pico.Props.c107_names
#print axioms Pico.Props.c107_scans
#print axioms Pico.Props.c107_pose_name
#print axioms Pico.Props.c107_replace
#print axioms Pico.Props.c107_partial
#print axioms Pico.Props.c107_missing
#print axioms Pico.Props.c107_order
#print axioms Pico.Props.c107_exits
#print axioms Pico.Props.c107_pose_partial
#print axioms Pico.Props.c107_pose_short
#print axioms Pico.Props.c107_pose_word
#print axioms Pico.Props.c107_names_false
#print axioms Pico.Props.c107_dir_false
#print axioms Pico.Props.c107_pose_false
-- C108 (partial)
#print axioms Pico.Props.c108_digits
#print axioms Pico.Props.c108_float
#print axioms Pico.Props.c108_float_file
#print axioms Pico.Props.c108_file
#print axioms Pico.Props.c108_injective_partial
#print axioms Pico.Props.c108_programs_partial
#print axioms Pico.Props.c108_no_points
#print axioms Pico.Props.c108_double_false
#print axioms Pico.Props.c108_empty
#print axioms Pico.Props.c108_stale
-- C109 (proved)
#print axioms Pico.Props.c109_nodes
#print axioms Pico.Props.c109_leaves
#print axioms Pico.Props.c109_build
#print axioms Pico.Props.c109_load
#print axioms Pico.Props.c109_bytes
#print axioms Pico.Props.c109_float
#print axioms Pico.Props.c109_double
-- C110 (partial)
#print axioms Pico.Props.c110_segments
#print axioms Pico.Props.c110_distances
#print axioms Pico.Props.c110_metrics
#print axioms Pico.Props.c110_box
#print axioms Pico.Props.c110_splitter_median
#print axioms Pico.Props.c110_splitter_midpoint
#print axioms Pico.Props.c110_splitter_sliding
#print axioms Pico.Props.c110_leaf_ranges_partial
#print axioms Pico.Props.c110_leaf_ranges_false
#print axioms Pico.Props.c110_python_creation
#print axioms Pico.Props.c110_python_search
#print axioms Pico.Props.c110_comparisons
#print axioms Pico.Props.c110_ordinal_neg
#print axioms Pico.Props.c110_so2_box
#print axioms Pico.Props.c110_so2_knn
-- C111 (partial)
#print axioms Pico.Props.c111_tree_partial
#print axioms Pico.Props.c111_search_partial
#print axioms Pico.Props.c111_l1_partial
#print axioms Pico.Props.c111_l2_partial
#print axioms Pico.Props.c111_float_l1_partial
#print axioms Pico.Props.c111_float_l2_partial
#print axioms Pico.Props.c111_false
#print axioms Pico.Props.c111_tree_false
-- C112 (partial)
#print axioms Pico.Props.c112_saved_partial
#print axioms Pico.Props.c112_loaded_partial
#print axioms Pico.Props.c112_loaded_dynamic_partial
#print axioms Pico.Props.c112_file_partial
#print axioms Pico.Props.c112_missing_partial
#print axioms Pico.Props.c112_cut
#print axioms Pico.Props.c112_cut_dynamic
#print axioms Pico.Props.c112_python
#print axioms Pico.Props.c112_silent_false
#print axioms Pico.Props.c112_false
#print axioms Pico.Props.c112_answer_false
-- C113 (proved)
#print axioms Pico.Props.c113_build_throws
#print axioms Pico.Props.c113_build
#print axioms Pico.Props.c113_build_same
#print axioms Pico.Props.c113_build_enough
#print axioms Pico.Props.c113_build_calls
#print axioms Pico.Props.c113_build_none
#print axioms Pico.Props.c113_load_throws
#print axioms Pico.Props.c113_load
#print axioms Pico.Props.c113_load_enough
#print axioms Pico.Props.c113_load_calls
#print axioms Pico.Props.c113_others
-- C114 (partial)
#print axioms Pico.Props.c114_euclidean
#print axioms Pico.Props.c114_topological
#print axioms Pico.Props.c114_l2
#print axioms Pico.Props.c114_axes
#print axioms Pico.Props.c114_turn
#print axioms Pico.Props.c114_se2
#print axioms Pico.Props.c114_box
#print axioms Pico.Props.c114_arc_partial
#print axioms Pico.Props.c114_arc_false
#print axioms Pico.Props.c114_lpinf_false
-- C115 (partial)
#print axioms Pico.Props.c115_make
#print axioms Pico.Props.c115_loads_partial
#print axioms Pico.Props.c115_euclidean_partial
#print axioms Pico.Props.c115_topological_partial
#print axioms Pico.Props.c115_search_partial
#print axioms Pico.Props.c115_leaf_partial
#print axioms Pico.Props.c115_false
-- C116 (partial)
#print axioms Pico.Props.c116_trace
#print axioms Pico.Props.c116_line_partial
#print axioms Pico.Props.c116_median_partial
#print axioms Pico.Props.c116_equal
#print axioms Pico.Props.c116_equal_all
#print axioms Pico.Props.c116_sliding_false
#print axioms Pico.Props.c116_false
#print axioms Pico.Props.c116_beside
#print axioms Pico.Props.c116_plane_false
-- C117 (partial)
#print axioms Pico.Props.c117_radius
#print axioms Pico.Props.c117_knn
#print axioms Pico.Props.c117_box
#print axioms Pico.Props.c117_performed
#print axioms Pico.Props.c117_performed_knn
#print axioms Pico.Props.c117_performed_box
#print axioms Pico.Props.c117_ratio_ignored
#print axioms Pico.Props.c117_ratio_false
#print axioms Pico.Props.c117_errors
#print axioms Pico.Props.c117_none
-- C118 (partial)
#print axioms Pico.Props.c118_same_partial
#print axioms Pico.Props.c118_partial
#print axioms Pico.Props.c118_range
#print axioms Pico.Props.c118_overflow_false
#print axioms Pico.Props.c118_false
#print axioms Pico.Props.c118_example
-- C119 (partial)
#print axioms Pico.Props.c119_make
#print axioms Pico.Props.c119_load
#print axioms Pico.Props.c119_attributes
#print axioms Pico.Props.c119_metric
#print axioms Pico.Props.c119_dtype
#print axioms Pico.Props.c119_errors
#print axioms Pico.Props.c119_knn_partial
#print axioms Pico.Props.c119_radius_partial
#print axioms Pico.Props.c119_box
#print axioms Pico.Props.c119_lpinf_false
#print axioms Pico.Props.c119_more_false
-- C120 (partial)
#print axioms Pico.Props.c120_refused_iff
#print axioms Pico.Props.c120_never_refused_false
#print axioms Pico.Props.c120_false
-- C121 (partial)
#print axioms Pico.Props.holds_vector
#print axioms Pico.Props.holds_map
#print axioms Pico.Props.computes_l1
#print axioms Pico.Props.computes_l2
#print axioms Pico.Props.computes_lpinf
#print axioms Pico.Props.computes_lninf
#print axioms Pico.Props.computes_so2
#print axioms Pico.Props.computes_se2
#print axioms Pico.Props.c121_nearest_euclidean
#print axioms Pico.Props.c121_nearest_topological
#print axioms Pico.Props.c121_box_euclidean
#print axioms Pico.Props.c121_box_topological
#print axioms Pico.Props.c121_bounds
#print axioms Pico.Props.c121_compiles
#print axioms Pico.Props.c121_rejected_partial
#print axioms Pico.Props.c121_bounds_false
#print axioms Pico.Props.c121_long_false
#print axioms Pico.Props.c121_short_false
#print axioms Pico.Props.c121_leaf_false
#print axioms Pico.Props.c121_se2_false
#print axioms Pico.Props.c121_dynamic_false
#print axioms Pico.Props.c121_box_false
-- C122 (partial)
#print axioms Pico.Props.computes_so2At
#print axioms Pico.Props.computes_se2At
#print axioms Pico.Props.c122_so2_partial
#print axioms Pico.Props.c122_se2_partial
#print axioms Pico.Props.c122_so2_false
#print axioms Pico.Props.c122_se2_false
#print axioms Pico.Props.c122_se2_short_false
-- C123 (proved)
#print axioms Pico.Props.c123_visitor
#print axioms Pico.Props.c123_unmoved_line
#print axioms Pico.Props.c123_unmoved_top
#print axioms Pico.Props.c123_leaf_line
#print axioms Pico.Props.c123_leaf_top
#print axioms Pico.Props.c123_root
#print axioms Pico.Props.c123_nn_line
#print axioms Pico.Props.c123_knn_line
#print axioms Pico.Props.c123_radius_line
#print axioms Pico.Props.c123_nn_top
#print axioms Pico.Props.c123_knn_top
#print axioms Pico.Props.c123_radius_top
#print axioms Pico.Props.c123_box_line
#print axioms Pico.Props.c123_box_top
#print axioms Pico.Props.c123_false
-- C124 (partial)
#print axioms Pico.Props.c124_exact_partial
#print axioms Pico.Props.c124_space_partial
#print axioms Pico.Props.c124_rounding_partial
#print axioms Pico.Props.c124_ieee_partial
#print axioms Pico.Props.c124_int_partial
#print axioms Pico.Props.c124_stuck
#print axioms Pico.Props.c124_int_false
#print axioms Pico.Props.c124_float_false
-- C125 (partial)
#print axioms Pico.Props.c125_point_partial
#print axioms Pico.Props.c125_pointer_partial
#print axioms Pico.Props.c125_range_partial
#print axioms Pico.Props.c125_space_partial
#print axioms Pico.Props.c125_space_static_partial
#print axioms Pico.Props.c125_points
#print axioms Pico.Props.c125_coord
#print axioms Pico.Props.c125_mat
#print axioms Pico.Props.c125_range_false
#print axioms Pico.Props.c125_static_false
#print axioms Pico.Props.c125_pointer_false
#print axioms Pico.Props.c125_space_false
#print axioms Pico.Props.c125_mat_false
-- C126 (proved)
#print axioms Pico.Props.c126_order
#print axioms Pico.Props.c126_nn
#print axioms Pico.Props.c126_radius
-- C127 (partial)
#print axioms Pico.Props.c127_contains
#print axioms Pico.Props.c127_contains_box
#print axioms Pico.Props.c127_max_side
#print axioms Pico.Props.c127_fill_partial
#print axioms Pico.Props.c127_fit_partial
#print axioms Pico.Props.c127_fit_box_partial
#print axioms Pico.Props.c127_fit_order_partial
#print axioms Pico.Props.c127_fit_contains_partial
#print axioms Pico.Props.c127_dynamic_partial
#print axioms Pico.Props.c127_make_partial
#print axioms Pico.Props.c127_make_static
#print axioms Pico.Props.c127_moved_static
#print axioms Pico.Props.c127_view
#print axioms Pico.Props.c127_pointers_false
#print axioms Pico.Props.c127_alias_false
#print axioms Pico.Props.c127_same_false
#print axioms Pico.Props.c127_default_false
#print axioms Pico.Props.c127_wrap_false
#print axioms Pico.Props.c127_moved_false
-- C128 (partial)
#print axioms Pico.Props.c128_defined_partial
#print axioms Pico.Props.c128_holds_partial
#print axioms Pico.Props.c128_freed_partial
#print axioms Pico.Props.c128_lost
#print axioms Pico.Props.c128_assign_moved
#print axioms Pico.Props.c128_swap
#print axioms Pico.Props.c128_assign_false
#print axioms Pico.Props.c128_source_false
#print axioms Pico.Props.c128_dangling_false
#print axioms Pico.Props.c128_self_false
-- C129 (partial)
#print axioms Pico.Props.c129_nearest
#print axioms Pico.Props.c129_box
#print axioms Pico.Props.c129_save
#print axioms Pico.Props.c129_leaf_ranges_partial
#print axioms Pico.Props.c129_any_memory
#print axioms Pico.Props.c129_nearest_euclidean
#print axioms Pico.Props.c129_nearest_topological
#print axioms Pico.Props.c129_box_euclidean
#print axioms Pico.Props.c129_box_topological
#print axioms Pico.Props.c129_answers_euclidean
#print axioms Pico.Props.c129_answers_topological
#print axioms Pico.Props.c129_empty_leaf_false
#print axioms Pico.Props.c129_source_false
#print axioms Pico.Props.c129_dangling_false
-- C130 (proved)
#print axioms Pico.Props.c130_build
#print axioms Pico.Props.c130_others
#print axioms Pico.Props.c130_destroy
#print axioms Pico.Props.c130_move
#print axioms Pico.Props.c130_search
#print axioms Pico.Props.c130_nn
#print axioms Pico.Props.c130_radius
#print axioms Pico.Props.c130_full_false
#print axioms Pico.Props.c130_loop_false
#print axioms Pico.Props.c130_source_false
-- C131 (proved)
#print axioms Pico.Props.c131_height
#print axioms Pico.Props.c131_depth
#print axioms Pico.Props.c131_degree
#print axioms Pico.Props.c131_degree_l1
#print axioms Pico.Props.c131_degree_lpinf
#print axioms Pico.Props.c131_degree_l2
#print axioms Pico.Props.c131_nn
-- C132 (proved)
#print axioms Pico.Props.c132_type
#print axioms Pico.Props.c132_new
#print axioms Pico.Props.c132_search
#print axioms Pico.Props.c132_output
#print axioms Pico.Props.c132_slice
#print axioms Pico.Props.c132_item
#print axioms Pico.Props.c132_iter
#print axioms Pico.Props.c132_view
#print axioms Pico.Props.c132_reuse
#print axioms Pico.Props.c132_write
#print axioms Pico.Props.c132_del
#print axioms Pico.Props.c132_safe
#print axioms Pico.Props.c132_data
#print axioms Pico.Props.c132_null_false
-- C133 (proved)
#print axioms Pico.Props.c133_defined
#print axioms Pico.Props.c133_freed
#print axioms Pico.Props.c133_search
#print axioms Pico.Props.c133_empty
#print axioms Pico.Props.c133_move
#print axioms Pico.Props.c133_nn
#print axioms Pico.Props.c133_budget
#print axioms Pico.Props.c133_short_false
-- C134 (proved)
#print axioms Pico.Props.c134_euclidean
#print axioms Pico.Props.c134_topological
#print axioms Pico.Props.c134_one_dim
#print axioms Pico.Props.c134_box
#print axioms Pico.Props.c134_box_topological
#print axioms Pico.Props.c134_rounding
-- C135 (proved)
#print axioms Pico.Props.c135_l1
#print axioms Pico.Props.c135_nn_l1
#print axioms Pico.Props.c135_l2
#print axioms Pico.Props.c135_nn_l2
#print axioms Pico.Props.c135_so2
#print axioms Pico.Props.c135_se2
#print axioms Pico.Props.c135_lpinf
-- C136 (proved)
#print axioms Pico.Props.c136_array_of_scalars
#print axioms Pico.Props.c136_array_of_points
#print axioms Pico.Props.c136_dynamic_arrays
#print axioms Pico.Props.c136_minimal
#print axioms Pico.Props.c136_creation
#print axioms Pico.Props.c136_save_and_load
#print axioms Pico.Props.c136_custom_space
#print axioms Pico.Props.c136_every_point_a_leaf
#print axioms Pico.Props.c136_single_leaf
#print axioms Pico.Props.c136_python
-- C137 (proved)
#print axioms Pico.Props.c137_euclidean
#print axioms Pico.Props.c137_topological
#print axioms Pico.Props.c137_l1
#print axioms Pico.Props.c137_l2
#print axioms Pico.Props.c137_lp
#print axioms Pico.Props.c137_so2
#print axioms Pico.Props.c137_se2
#print axioms Pico.Props.c137_t2
-- C138 (proved)
#print axioms Pico.Props.c138_knn_genuine
#print axioms Pico.Props.c138_radius_genuine
#print axioms Pico.Props.c138_self
#print axioms Pico.Props.c138_knn_grid
#print axioms Pico.Props.c138_radius_grid
#print axioms Pico.Props.c138_knn_line
#print axioms Pico.Props.c138_radius_line
#print axioms Pico.Props.c138_knn_close
#print axioms Pico.Props.c138_radius_close
-- C139 (proved)
#print axioms Pico.Props.c139_search_s1
#print axioms Pico.Props.c139_search_t2
#print axioms Pico.Props.c139_search_lp3
#print axioms Pico.Props.c139_visited
#print axioms Pico.Props.c139_search_r3
-- C140 (proved)
#print axioms Pico.Props.c140_nn_genuine
#print axioms Pico.Props.c140_knn_genuine
#print axioms Pico.Props.c140_radius_genuine
#print axioms Pico.Props.c140_py_knn_genuine
#print axioms Pico.Props.c140_py_radius_genuine
#print axioms Pico.Props.c140_py_knn_close
#print axioms Pico.Props.c140_py_radius_close
#print axioms Pico.Props.c140_py_ratio
-- C141 (proved)
#print axioms Pico.Props.c141_static
#print axioms Pico.Props.c141_dynamic
#print axioms Pico.Props.c141_other_dimension
#print axioms Pico.Props.c141_unique
#print axioms Pico.Props.c141_float
#print axioms Pico.Props.c141_python
-- C142 (proved)
#print axioms Pico.Props.c142_circle
#print axioms Pico.Props.c142_seam
#print axioms Pico.Props.c142_float
#print axioms Pico.Props.c142_relative_false
-- C143 (proved)
#print axioms Pico.Props.c143_l1
#print axioms Pico.Props.c143_l2
#print axioms Pico.Props.c143_scalar
#print axioms Pico.Props.c143_box
#print axioms Pico.Props.c143_wraps_false
#print axioms Pico.Props.c143_unsigned_false
#print axioms Pico.Props.c143_unsigned_radius_false
-- C144 (proved)
#print axioms Pico.Props.c144_one
#print axioms Pico.Props.c144_radius_empty
#print axioms Pico.Props.c144_nn_zero
#print axioms Pico.Props.c144_knn_zero
#print axioms Pico.Props.c144_ratio_false
-- C145 (proved)
#print axioms Pico.Props.c145_tree
#print axioms Pico.Props.c145_search
#print axioms Pico.Props.c145_nn
#print axioms Pico.Props.c145_nn_point
#print axioms Pico.Props.c145_radius
#print axioms Pico.Props.c145_knn
#print axioms Pico.Props.c145_nn_approx
#print axioms Pico.Props.c145_radius_approx
#print axioms Pico.Props.c145_knn_approx
#print axioms Pico.Props.c145_ties_false
-- C146 (proved)
#print axioms Pico.Props.c146_files
#print axioms Pico.Props.c146_tree
#print axioms Pico.Props.c146_knn
#print axioms Pico.Props.c146_knn_empty
#print axioms Pico.Props.c146_box
#print axioms Pico.Props.c146_box_rounded
#print axioms Pico.Props.c146_box_beyond
#print axioms Pico.Props.c146_radius
#print axioms Pico.Props.c146_radius_le
#print axioms Pico.Props.c146_cover
-- C147 (proved)
#print axioms Pico.Props.c147_build
#print axioms Pico.Props.c147_points
#print axioms Pico.Props.c147_exact
#print axioms Pico.Props.c147_short_false
#print axioms Pico.Props.c147_value_false
#print axioms Pico.Props.c147_kept
-- C148 (partial)
#print axioms Pico.Props.c148_radius
#print axioms Pico.Props.c148_knn
#print axioms Pico.Props.c148_tests
#print axioms Pico.Props.c148_hang_false
#print axioms Pico.Props.c148_border_false
-- C149 (proved)
#print axioms Pico.Props.c149_nn
#print axioms Pico.Props.c149_radius
#print axioms Pico.Props.c149_nn_l1
#print axioms Pico.Props.c149_nn_l2
#print axioms Pico.Props.c149_radius_l1
#print axioms Pico.Props.c149_line
#print axioms Pico.Props.c149_midpoint_false
#print axioms Pico.Props.c149_circle
#print axioms Pico.Props.c149_circle_midpoint_false
#print axioms Pico.Props.c149_line_others_false
-- C150 (proved)
#print axioms Pico.Props.c150_match
#print axioms Pico.Props.c150_category
#print axioms Pico.Props.c150_shows
#print axioms Pico.Props.c150_plots
#print axioms Pico.Props.c150_label
#print axioms Pico.Props.c150_label_false
#print axioms Pico.Props.c150_box
#print axioms Pico.Props.c150_name_false
-- C151 (proved)
#print axioms Pico.Props.c151_types
#print axioms Pico.Props.c151_made
#print axioms Pico.Props.c151_new
#print axioms Pico.Props.c151_shared
#print axioms Pico.Props.c151_follows
#print axioms Pico.Props.c151_stale_false
-- C152 (proved)
#print axioms Pico.Props.c152_check
#print axioms Pico.Props.c152_refl
#print axioms Pico.Props.c152_eigen
#print axioms Pico.Props.c152_opencv
#print axioms Pico.Props.c152_vector
#print axioms Pico.Props.c152_map
#print axioms Pico.Props.c152_blind_false
#print axioms Pico.Props.c152_self_false
