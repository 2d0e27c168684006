import Verif.Props.Memory
import Verif.Props.KdTree
import Verif.Props.KdQuery
import Verif.Props.KdBox
import Verif.Props.KdOrder
import Verif.Props.Graph
import Verif.Props.Text
import Verif.Props.Weld
import Verif.Props.Mesh
import Verif.Props.Orient
import Verif.Props.Adjust
import Verif.Props.Cover
import Verif.Props.Lipschitz
import Verif.Props.Sliver
import Verif.Props.Random
import Verif.Props.Pool
import Verif.Props.PoolCover
import Verif.Props.Sparse
import Verif.Props.Cholesky
import Verif.Props.Geometry
import Verif.Props.Regions
import Verif.Props.Merge
import Verif.Props.Corners
import Verif.Props.PowerVertex
import Verif.Props.Seeds
import Verif.Props.SeedRun
import Verif.Props.SeedBugs
import Verif.Props.Imposed
import Verif.Props.Culling
import Verif.Props.MesherLip
import Verif.Props.Activation
import Verif.Props.Front
import Verif.Props.Trim
import Verif.Props.Cell
import Verif.Props.CellRun
import Verif.Props.VoroMesh
import Verif.Props.MeshRun
import Verif.Props.Vcg
import Verif.Props.FaceClean
import Verif.Props.Sharp
import Verif.Props.Basis
import Verif.Props.Exodus
import Verif.Props.EdgeSpheres
import Verif.Props.SurfaceSphereCases
import Verif.Props.SurfaceSpheres
import Verif.Props.Fans
import Verif.Props.EdgeDelaunay
import Verif.Props.Spokes
import Verif.Props.TreeFile
import Verif.Props.Clouds
import Verif.Props.Execute
import Verif.Props.ExecuteCases
import Verif.Props.ExecuteRun
import Verif.Props.LeastSquares
import Verif.Props.AddRow
import Verif.Props.InteriorRun
import Verif.Props.FrontEnds
import Verif.Props.CullThreshold
import Verif.Props.Vps
import Verif.Props.VpsDefault
import Verif.Props.ObjFile
import Verif.Props.FanCases
import Verif.Props.Sheets
import Verif.Props.SheetAngles
import Verif.Props.SheetRegions
import Verif.Props.SheetCases
import Verif.Props.SheetLeak
import Verif.Props.TrimTrace
import Verif.Props.TrimRing
import Verif.Props.PolyGeom
import Verif.Props.TrimShape
import Verif.Props.BoxShape
import Verif.Props.CutExact
import Verif.Props.CellExact
import Verif.Props.CellComplete
import Verif.Props.CellCase
import Verif.Props.MeshCell
import Verif.Props.MeshExact
import Verif.Props.MeshVoronoi
import Verif.Props.MeshMain
import Verif.Props.MeshCase
import Verif.Props.MeshVolume
import Verif.Props.MeshVolumeCase
import Verif.Props.Conform
import Verif.Props.ConformCase
import Verif.Props.RingWalk
import Verif.Props.LimitCell
import Verif.Props.LimitRing
import Verif.Props.LimitFace
import Verif.Props.LimitExact
import Verif.Props.LimitMesh
import Verif.Props.MeshGap
import Verif.Props.MeshGapCase
import Verif.Props.MeshGapVolume
import Verif.Props.MeshGapVolumeCase
import Verif.Props.SurfaceMesh
import Verif.Props.SurfaceMeshCase
import Verif.Props.NoCross
import Verif.Props.Explicit
import Verif.Props.ExplicitCase
import Verif.Props.Run
import Verif.Props.RunCase
import Verif.Props.RunEdges
import Verif.Props.GemCase
import Verif.Props.GemSheets
import Verif.Props.GemRun
import Verif.Props.FrontStops
import Verif.Props.FrontLeak
import Verif.Props.RunStops
import Verif.Props.GemStops
import Verif.Props.TetStops
import Verif.Props.TrimLimit
import Verif.Props.WeakShape
import Verif.Props.CellGap
import Verif.Props.CellGrid
import Verif.Props.EdgeStops
import Verif.Props.SurfaceStops
import Verif.Props.Ply
import Verif.Props.SpokeIntegral
import Verif.Props.SphereFile
import Verif.Props.Adaptive
import Verif.Props.Vwn
import Verif.Props.ExodusFile
import Verif.Props.Features
import Verif.Props.Contour
import Verif.Props.RepairMesh
import Verif.Props.RankOne
import Verif.Props.TreeCell
import Verif.Props.MeshGen
import Verif.Props.TreeMemory
import Verif.Props.TreeFace
import Verif.Props.SpokesMemory
import Verif.Props.PoolMemory
import Verif.Props.SurfaceMemory
import Verif.Props.RunMemory
import Verif.Props.FrontMemory
import Verif.Props.MeshMemory
import Verif.Props.AddedMemory
import Verif.Props.LateMemory
import Verif.Props.CullKept

/-! # Axioms of the property theorems

Prints the axioms every theorem named in MANIFEST.json depends on.
-/

#print axioms VoroCrust.C01_append_history
#print axioms VoroCrust.C01_zero_capacity_undefined
#print axioms VoroCrust.C02_quicksort_sorts
#print axioms VoroCrust.C02_quicksort_list
#print axioms VoroCrust.C02_quicksort_safe
#print axioms VoroCrust.C03_companion_lockstep
#print axioms VoroCrust.C03_companions_lockstep
#print axioms VoroCrust.C04_insert_history
#print axioms VoroCrust.C04_mixed_history
#print axioms VoroCrust.C04_dim_zero_undefined
#print axioms VoroCrust.C05_balanced_rebuild
#print axioms VoroCrust.C05_empty_undefined
#print axioms VoroCrust.C06_closest_is_exhaustive
#print axioms VoroCrust.C06_empty_tree_undefined
#print axioms VoroCrust.C07_rounded_closest_partial
#print axioms VoroCrust.C07_rounding_tie_false
#print axioms VoroCrust.C08_in_sphere_sound_complete
#print axioms VoroCrust.C08_in_sphere_max_index
#print axioms VoroCrust.C08_in_sphere_boundary
#print axioms VoroCrust.C09_in_sphere_tree_dependent_false
#print axioms VoroCrust.C09_in_sphere_agree_partial
#print axioms VoroCrust.C10_graph_history
#print axioms VoroCrust.C10_graph_symmetric
#print axioms VoroCrust.C11_reenumeration_bijection
#print axioms VoroCrust.C11_empty_undefined
#print axioms VoroCrust.C12_tokens_lossless
#print axioms VoroCrust.C12_words
#print axioms VoroCrust.C13_config_meaning
#print axioms VoroCrust.C13_dispatch
#print axioms VoroCrust.C13_lines
#print axioms VoroCrust.C13_words
#print axioms VoroCrust.C13_white_space
#print axioms VoroCrust.C14_command_line
#print axioms VoroCrust.C15_merge_keeps_faces
#print axioms VoroCrust.C16_seed_file
#print axioms VoroCrust.C16_sphere_file
#print axioms VoroCrust.C17_weld_partial
#print axioms VoroCrust.C17_no_degenerate_after_weld
#print axioms VoroCrust.C17_degenerate_kept_false
#print axioms VoroCrust.C18_remove_isolated
#print axioms VoroCrust.C19_point_faces_transpose
#print axioms VoroCrust.C19_invalid_corner_undefined
#print axioms VoroCrust.C20_edge_faces
#print axioms VoroCrust.C20_symmetric
#print axioms VoroCrust.C20_repeated_corner_false
#print axioms VoroCrust.C21_watertight_partial
#print axioms VoroCrust.C21_repeated_corner_false
#print axioms VoroCrust.C22_validation_partial
#print axioms VoroCrust.C22_open_edge_accepted_false
#print axioms VoroCrust.C23_orientation_partial
#print axioms VoroCrust.C23_consistent_unchanged
#print axioms VoroCrust.C23_orientable_left_inconsistent_false
#print axioms VoroCrust.C23_uninitialised_flag_false
#print axioms VoroCrust.C23_repeated_corner_undefined
#print axioms VoroCrust.C24_point_covered
#print axioms VoroCrust.C24_no_spheres
#print axioms VoroCrust.C24_point_covered_by
#print axioms VoroCrust.C25_face_covered
#print axioms VoroCrust.C25_edge_covered
#print axioms VoroCrust.C26_lipschitz_brute
#print axioms VoroCrust.C27_lipschitz_tree_partial
#print axioms VoroCrust.C27_isolated_unchanged
#print axioms VoroCrust.C27_distant_pair_false
#print axioms VoroCrust.C27_empty_undefined
#print axioms VoroCrust.C28_overlapping_spheres
#print axioms VoroCrust.C29_resolve_sliver
#print axioms VoroCrust.C30_power_vertex
#print axioms VoroCrust.C30_power_vertex_geometry
#print axioms VoroCrust.C31_empty_pool_means_covered
#print axioms VoroCrust.C31_all_patches
#print axioms VoroCrust.C31_edges_covered
#print axioms VoroCrust.C32_parallel_eq_sequential
#print axioms VoroCrust.C32_thread_count_irrelevant
#print axioms VoroCrust.C32_sequential_build_runs
#print axioms VoroCrust.C33_face_codes
#print axioms VoroCrust.C33_face_start
#print axioms VoroCrust.C33_edge_codes
#print axioms VoroCrust.C33_edge_start
#print axioms VoroCrust.C34_patches_partition
#print axioms VoroCrust.C34_patches_disjoint
#print axioms VoroCrust.C34_no_patch_undefined
#print axioms VoroCrust.C35_discrete_cdf
#print axioms VoroCrust.C35_zero_cdf
#print axioms VoroCrust.C35_empty_table_undefined
#print axioms VoroCrust.C35_search_in_range
#print axioms VoroCrust.C35_search_interval
#print axioms VoroCrust.C35_search_empty_undefined
#print axioms VoroCrust.C35_weight_table
#print axioms VoroCrust.C35_weighted_draw
#print axioms VoroCrust.C36_draws_in_range
#print axioms VoroCrust.C36_refines_integer_generator
#print axioms VoroCrust.C36_seeded_state
#print axioms VoroCrust.C37_box
#print axioms VoroCrust.C37_simplex
#print axioms VoroCrust.C37_simplex_reaches
#print axioms VoroCrust.C38_corner_spheres
#print axioms VoroCrust.C39_seed_pairs_partial
#print axioms VoroCrust.C39_close_centres_false
#print axioms VoroCrust.C39_unlucky_direction_undefined
#print axioms VoroCrust.C40_regions_are_components
#print axioms VoroCrust.C40_exterior_is_zero
#print axioms VoroCrust.C40_graph_of_history
#print axioms VoroCrust.C40_no_connection_undefined
#print axioms VoroCrust.C40_no_seeds_undefined
#print axioms VoroCrust.C41_merge_partial
#print axioms VoroCrust.C41_single_parent_partial
#print axioms VoroCrust.C41_chain_lost_false
#print axioms VoroCrust.C42_segment_projection
#print axioms VoroCrust.C42_equal_ends_undefined
#print axioms VoroCrust.C42_line_projection
#print axioms VoroCrust.C43_triangle_projection_partial
#print axioms VoroCrust.C43_degenerate_false
#print axioms VoroCrust.C43_degenerate_witness
#print axioms VoroCrust.C44_normal_component
#print axioms VoroCrust.C45_sparse_vector_is_a_map
#print axioms VoroCrust.C45_null_read_undefined
#print axioms VoroCrust.C46_sparse_dot
#print axioms VoroCrust.C46_dense_dot
#print axioms VoroCrust.C46_sparse_dot_of_histories
#print axioms VoroCrust.C47_cholesky_solver
#print axioms VoroCrust.C47_no_rows_undefined
#print axioms VoroCrust.C47_zero_diagonal_undefined
#print axioms VoroCrust.C47_factor_then_solve
#print axioms VoroCrust.C48_counter_partial
#print axioms VoroCrust.C48_lost_update_false
#print axioms VoroCrust.C49_active_front_partial
#print axioms VoroCrust.C49_neighbours_active_false
#print axioms VoroCrust.C49_empty_front_undefined
#print axioms VoroCrust.C49_coincident_seeds_false
#print axioms VoroCrust.C50_interior_seeds
#print axioms VoroCrust.C51_corners_partial
#print axioms VoroCrust.C51_cell_partial
#print axioms VoroCrust.C51_generic_partial
#print axioms VoroCrust.C51_gap_partial
#print axioms VoroCrust.C51_grid
#print axioms VoroCrust.C52_defined_partial
#print axioms VoroCrust.C52_generic_partial
#print axioms VoroCrust.C52_gap_partial
#print axioms VoroCrust.C52_single_seed_false
#print axioms VoroCrust.C52_zero_radius_false
#print axioms VoroCrust.C52_tiny_radius_undefined
#print axioms VoroCrust.C53_welding
#print axioms VoroCrust.C54_faces
#print axioms VoroCrust.C54_face_listed
#print axioms VoroCrust.C55_vcg_file
#print axioms VoroCrust.C55_from_cells
#print axioms VoroCrust.C55_no_cells_undefined
#print axioms VoroCrust.C56_cell_faces_transpose
#print axioms VoroCrust.C57_removal
#print axioms VoroCrust.C58_monitoring_points_partial
#print axioms VoroCrust.C58_on_sharp_edge_false
#print axioms VoroCrust.C59_neighbours_partial
#print axioms VoroCrust.C59_shared_point_false
#print axioms VoroCrust.C60_clean_partial
#print axioms VoroCrust.C60_clean_input
#print axioms VoroCrust.C60_one_degenerate
#print axioms VoroCrust.C60_release_undefined
#print axioms VoroCrust.C60_skipped_false
#print axioms VoroCrust.C61_multiplicity
#print axioms VoroCrust.C61_once_partial
#print axioms VoroCrust.C61_valence_three_false
#print axioms VoroCrust.C61_orientation_false
#print axioms VoroCrust.C62_buffers_partial
#print axioms VoroCrust.C62_small_buffers_undefined
#print axioms VoroCrust.C63_chebyshev
#print axioms VoroCrust.C63_basis
#print axioms VoroCrust.C63_dimension_zero_undefined
#print axioms VoroCrust.C64_all_histories
#print axioms VoroCrust.C64_one_file_partial
#print axioms VoroCrust.C64_close
#print axioms VoroCrust.C64_second_open_false
#print axioms VoroCrust.C64_no_handle_false
#print axioms VoroCrust.C65_obj_file
#print axioms VoroCrust.C65_corner_reference
#print axioms VoroCrust.C66_normals_partial
#print axioms VoroCrust.C66_stale_normal_false
#print axioms VoroCrust.C67_adjust_orientation
#print axioms VoroCrust.C67_no_points_undefined
#print axioms VoroCrust.C68_unit_length
#print axioms VoroCrust.C68_zero_draw_undefined
#print axioms VoroCrust.C68_no_dimension_undefined
#print axioms VoroCrust.C69_dart_on_its_face
#print axioms VoroCrust.C69_dart_on_its_edge
#print axioms VoroCrust.C69_empty_pool_undefined
#print axioms VoroCrust.C70_cholesky_factorization
#print axioms VoroCrust.C70_finds_the_factor
#print axioms VoroCrust.C71_power_vertex
#print axioms VoroCrust.C71_success_possible
#print axioms VoroCrust.C71_count_undefined
#print axioms VoroCrust.C72_imposed_seeds
#print axioms VoroCrust.C73_moved_partial
#print axioms VoroCrust.C73_monitoring_point_removed_false
#print axioms VoroCrust.C57_removal
#print axioms VoroCrust.C74_mesher_lipschitz_partial
#print axioms VoroCrust.C74_distant_pair_false
#print axioms VoroCrust.C75_round
#print axioms VoroCrust.C76_trim
#print axioms VoroCrust.initPoly_wf
#print axioms VoroCrust.C77_cell_graph
#print axioms VoroCrust.C78_corners
#print axioms VoroCrust.C78_from_mesh
#print axioms VoroCrust.C79_coordinates_partial
#print axioms VoroCrust.C80_connectivity
#print axioms VoroCrust.C80_overflow_undefined
#print axioms VoroCrust.C81_edge_spheres
#print axioms VoroCrust.C81_result
#print axioms VoroCrust.C81_no_corner_undefined
#print axioms VoroCrust.C81_no_sphere_undefined
#print axioms VoroCrust.C81_minimum_radius_false
#print axioms VoroCrust.C82_surface_spheres
#print axioms VoroCrust.C82_sampling_defined
#print axioms VoroCrust.C82_no_sphere_undefined
#print axioms VoroCrust.C82_no_faces_undefined
#print axioms VoroCrust.C82_stale_radius_bug
#print axioms VoroCrust.C82_threads_undefined
#print axioms VoroCrust.C82_minimum_radius_false
#print axioms VoroCrust.C82_some_seed_false
#print axioms VoroCrust.C83_narrow_regions_partial
#print axioms VoroCrust.C83_narrow_regions_false
#print axioms VoroCrust.C84_fan_marks
#print axioms VoroCrust.C84_regions
#print axioms VoroCrust.C84_separated
#print axioms VoroCrust.C84_watertight_fans
#print axioms VoroCrust.C84_pinch_false
#print axioms VoroCrust.C85_edge_marks_partial
#print axioms VoroCrust.C85_sectors_partial
#print axioms VoroCrust.C85_regions_partial
#print axioms VoroCrust.C85_no_neighbor_undefined
#print axioms VoroCrust.C85_feature_triangle_bug
#print axioms VoroCrust.C85_leak_bug
#print axioms VoroCrust.C86_point_angle_partial
#print axioms VoroCrust.C86_tolerance_false
#print axioms VoroCrust.C87_edge_seeds_partial
#print axioms VoroCrust.C87_single_edge_sphere_undefined
#print axioms VoroCrust.C87_nothing_ahead_undefined
#print axioms VoroCrust.C87_inside_corner_false
#print axioms VoroCrust.C88_trim_spoke
#print axioms VoroCrust.C88_small_scale_false
#print axioms VoroCrust.C89_neighbors
#print axioms VoroCrust.C89_wanted
#print axioms VoroCrust.C89_too_many_wanted_never_ends
#print axioms VoroCrust.C90_read_file
#print axioms VoroCrust.C90_tree_file
#print axioms VoroCrust.C90_blank_line_undefined
#print axioms VoroCrust.C90_digits_false
#print axioms VoroCrust.C91_add_point
#print axioms VoroCrust.C91_attributes
#print axioms VoroCrust.C91_good_records
#print axioms VoroCrust.C91_last_index_undefined
#print axioms VoroCrust.C92_edge_cloud
#print axioms VoroCrust.C92_face_cloud
#print axioms VoroCrust.C92_distances
#print axioms VoroCrust.C92_empty_undefined
#print axioms VoroCrust.C92_size
#print axioms VoroCrust.C92_empty_size_undefined
#print axioms VoroCrust.C93_chain
#print axioms VoroCrust.C93_corners
#print axioms VoroCrust.C93_edges
#print axioms VoroCrust.C93_sampled
#print axioms VoroCrust.C93_loops_undefined
#print axioms VoroCrust.C94_minimum_radius_bug
#print axioms VoroCrust.C94_smooth_undefined
#print axioms VoroCrust.C94_destructor
#print axioms VoroCrust.C95_least_squares
#print axioms VoroCrust.C95_full_rank
#print axioms VoroCrust.C95_dependent_columns_false
#print axioms VoroCrust.C95_wide_undefined
#print axioms VoroCrust.C96_equidistant
#print axioms VoroCrust.C96_number_of_seeds
#print axioms VoroCrust.C96_flat_false
#print axioms VoroCrust.C97_add_row
#print axioms VoroCrust.C97_finds_the_row
#print axioms VoroCrust.C97_row_by_row
#print axioms VoroCrust.C97_row_by_row_finds
#print axioms VoroCrust.C97_empty_row_undefined
#print axioms VoroCrust.C98_interior_run_partial
#print axioms VoroCrust.C98_not_removed_false
#print axioms VoroCrust.C99_regression
#print axioms VoroCrust.C99_reproduced
#print axioms VoroCrust.C99_nearest
#print axioms VoroCrust.C99_estimate
#print axioms VoroCrust.C99_default_basis_false
#print axioms VoroCrust.C100_round_trip
#print axioms VoroCrust.C100_input_surface
#print axioms VoroCrust.C100_reread
#print axioms VoroCrust.C100_digits_false
#print axioms VoroCrust.C101_trim_exact
#print axioms VoroCrust.C102_voronoi_mesh
#print axioms VoroCrust.CellRun.mesh_case
#print axioms VoroCrust.C103_file_volumes
#print axioms VoroCrust.C103_gap
#print axioms VoroCrust.C103_grid
#print axioms VoroCrust.CellRun.volume_case
#print axioms VoroCrust.lattice_file
#print axioms VoroCrust.C104_triangle_is_face
#print axioms VoroCrust.C104_run
#print axioms VoroCrust.C104_regions
#print axioms VoroCrust.C105_gap
#print axioms VoroCrust.C105_grid
#print axioms VoroCrust.lattice_mesh
#print axioms VoroCrust.C106_surface_in_mesh
#print axioms VoroCrust.C107_explicit_mesh
#print axioms VoroCrust.C107_grid
#print axioms VoroCrust.C107_seeds_file
#print axioms VoroCrust.C108_no_crossing
#print axioms VoroCrust.C108_run
#print axioms VoroCrust.C109_mesh_run
#print axioms VoroCrust.C109_execute
#print axioms VoroCrust.C109_no_seeds_undefined
#print axioms VoroCrust.C109_octahedron_undefined
#print axioms VoroCrust.C110_mesh_run
#print axioms VoroCrust.C110_execute
#print axioms VoroCrust.C111_seeding_ends
#print axioms VoroCrust.C111_interior_ends
#print axioms VoroCrust.C111_smooth_ends
#print axioms VoroCrust.C111_open_never_ends
#print axioms VoroCrust.C112_edge_rounds
#print axioms VoroCrust.C112_unlucky_never_ends
#print axioms VoroCrust.C113_surface_rounds
#print axioms VoroCrust.C114_ply_round_trip
#print axioms VoroCrust.C114_ply_ahead
#print axioms VoroCrust.C114_many_corners_false
#print axioms VoroCrust.C115_sphere_constant
#print axioms VoroCrust.C115_dimension_42_false
#print axioms VoroCrust.C115_cell_integral
#print axioms VoroCrust.C115_cell_volume
#print axioms VoroCrust.C115_linear
#print axioms VoroCrust.C115_sample
#print axioms VoroCrust.C115_search_never_ends
#print axioms VoroCrust.C115_spoke_end
#print axioms VoroCrust.C115_open_spoke_end
#print axioms VoroCrust.C116_seeds_read_back
#print axioms VoroCrust.C116_points_read_back
#print axioms VoroCrust.C116_restart
#print axioms VoroCrust.C116_points_as_seeds_undefined
#print axioms VoroCrust.C117_table
#print axioms VoroCrust.C117_draw
#print axioms VoroCrust.C117_set_sampling_undefined
#print axioms VoroCrust.C117_order_zero_false
#print axioms VoroCrust.C117_stale_table_false
#print axioms VoroCrust.C117_add_samples_undefined
#print axioms VoroCrust.C118_mean
#print axioms VoroCrust.C118_between
#print axioms VoroCrust.C118_found
#print axioms VoroCrust.C118_at_seed
#print axioms VoroCrust.C118_plain
#print axioms VoroCrust.C118_no_neighbor_undefined
#print axioms VoroCrust.C119_read_back
#print axioms VoroCrust.C119_regions_lost
#print axioms VoroCrust.C119_regions_false
#print axioms VoroCrust.C119_many_points_undefined
#print axioms VoroCrust.C120_connectivity_partial
#print axioms VoroCrust.C120_maps
#print axioms VoroCrust.C120_node_set
#print axioms VoroCrust.C120_side_set_false
#print axioms VoroCrust.C120_side_set_undefined
#print axioms VoroCrust.C120_title
#print axioms VoroCrust.C121_edges
#print axioms VoroCrust.C121_oriented_partial
#print axioms VoroCrust.C121_rotation_false
#print axioms VoroCrust.C122_features
#print axioms VoroCrust.C122_min_angle
#print axioms VoroCrust.C122_min_angle_false
#print axioms VoroCrust.C123_side_partial
#print axioms VoroCrust.C123_side_false
#print axioms VoroCrust.C123_levels
#print axioms VoroCrust.C123_polygon_partial
#print axioms VoroCrust.C123_page
#print axioms VoroCrust.C123_colours
#print axioms VoroCrust.C123_drawn
#print axioms VoroCrust.C123_covered_partial
#print axioms VoroCrust.C123_white
#print axioms VoroCrust.C124_plot_value
#print axioms VoroCrust.C124_slice_index
#print axioms VoroCrust.C124_plot_dimensions
#print axioms VoroCrust.C125_repair_partial
#print axioms VoroCrust.C125_corner_flag_false
#print axioms VoroCrust.C125_returned_false
#print axioms VoroCrust.C126_rank_one
#print axioms VoroCrust.C126_remove_row
#print axioms VoroCrust.C126_scan_partial
#print axioms VoroCrust.C126_scan_undefined
#print axioms VoroCrust.C127_cell
#print axioms VoroCrust.C127_reached
#print axioms VoroCrust.C127_volume
#print axioms VoroCrust.C128_mesh_partial
#print axioms VoroCrust.C128_slivers
#print axioms VoroCrust.C128_file_false
#print axioms VoroCrust.C128_constant_false
#print axioms VoroCrust.C128_never_ends
#print axioms VoroCrust.C128_range
#print axioms VoroCrust.C129_life_partial
#print axioms VoroCrust.C129_samplers_partial
#print axioms VoroCrust.C129_samplers_undefined
#print axioms VoroCrust.C129_array_undefined
#print axioms VoroCrust.C129_array_destroyed
#print axioms VoroCrust.C130_ring
#print axioms VoroCrust.C130_corners
#print axioms VoroCrust.C130_closed
#print axioms VoroCrust.C130_defined_partial
#print axioms VoroCrust.C130_unset_undefined
#print axioms VoroCrust.C130_triangle_undefined
#print axioms VoroCrust.C131_life_partial
#print axioms VoroCrust.C131_samples_partial
#print axioms VoroCrust.C131_suggest_partial
#print axioms VoroCrust.C131_distinct
#print axioms VoroCrust.C131_full_undefined
#print axioms VoroCrust.C131_twice_lost
#print axioms VoroCrust.C131_clear_undefined
#print axioms VoroCrust.C131_again_undefined
#print axioms VoroCrust.C131_suggest_undefined
#print axioms VoroCrust.C132_refine
#print axioms VoroCrust.C132_life
#print axioms VoroCrust.C132_emptied
#print axioms VoroCrust.C133_weld
#print axioms VoroCrust.C133_surface
#print axioms VoroCrust.C133_life_partial
#print axioms VoroCrust.C133_removed_undefined
#print axioms VoroCrust.C133_nofile_undefined
#print axioms VoroCrust.C134_run
#print axioms VoroCrust.C134_clean_partial
#print axioms VoroCrust.C134_lost
#print axioms VoroCrust.C135_seeding_partial
#print axioms VoroCrust.C135_lost
#print axioms VoroCrust.C136_cell
#print axioms VoroCrust.C136_mesh
#print axioms VoroCrust.C136_explicit_partial
#print axioms VoroCrust.C136_file_partial
#print axioms VoroCrust.C136_exodus_lost
#print axioms VoroCrust.C137_edges
#print axioms VoroCrust.C137_impose
#print axioms VoroCrust.C137_added
#print axioms VoroCrust.C138_late_partial
#print axioms VoroCrust.C138_lost
