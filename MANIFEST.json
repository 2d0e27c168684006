{
 "claims": [
  {
   "property": "C01",
   "status": "proved",
   "theorems": [
    "VoroCrust.C01_append_history",
    "VoroCrust.C01_zero_capacity_undefined"
   ],
   "note": "any initial content, any history; capacity 0 is undefined behaviour in the code and modelled as such"
  },
  {
   "property": "C02",
   "status": "proved",
   "theorems": [
    "VoroCrust.C02_quicksort_sorts",
    "VoroCrust.C02_quicksort_list",
    "VoroCrust.C02_quicksort_safe"
   ],
   "note": "generic strict weak order; termination, bounds, permutation, order"
  },
  {
   "property": "C03",
   "status": "proved",
   "theorems": [
    "VoroCrust.C03_companion_lockstep",
    "VoroCrust.C03_companions_lockstep"
   ],
   "note": "same permutation applied to every companion"
  },
  {
   "property": "C04",
   "status": "proved",
   "theorems": [
    "VoroCrust.C04_insert_history",
    "VoroCrust.C04_mixed_history",
    "VoroCrust.C04_dim_zero_undefined"
   ],
   "note": "Any dimension >= 1, any asymmetric comparison, any number of insertions and any re-balancing policy; also any interleaving with rebuilds and re-enumerations. Dimension 0 is undefined behaviour."
  },
  {
   "property": "C05",
   "status": "proved",
   "theorems": [
    "VoroCrust.C05_balanced_rebuild",
    "VoroCrust.C05_empty_undefined"
   ],
   "note": "Both mirrored partition orders. Asymmetric comparison assumed. Rebuilding an empty set is undefined behaviour."
  },
  {
   "property": "C06",
   "status": "proved",
   "theorems": [
    "VoroCrust.C06_closest_is_exhaustive",
    "VoroCrust.C06_empty_tree_undefined"
   ],
   "note": "Exact real arithmetic, both implementations, any eligibility filter and bound."
  },
  {
   "property": "C07",
   "status": "partial",
   "theorems": [
    "VoroCrust.C07_rounded_closest_partial",
    "VoroCrust.C07_rounding_tie_false"
   ],
   "note": "Property false for points tied in a coordinate (witness proved). Proved for arbitrary monotone rounding without ties."
  },
  {
   "property": "C08",
   "status": "proved",
   "theorems": [
    "VoroCrust.C08_in_sphere_sound_complete",
    "VoroCrust.C08_in_sphere_max_index",
    "VoroCrust.C08_in_sphere_boundary"
   ],
   "note": "Exact real arithmetic; radius >= 0. C08_in_sphere_boundary says which points on the boundary are found."
  },
  {
   "property": "C09",
   "status": "partial",
   "theorems": [
    "VoroCrust.C09_in_sphere_tree_dependent_false",
    "VoroCrust.C09_in_sphere_agree_partial"
   ],
   "note": "Property false in the tolerance shell (witness proved). Agreement proved outside the shell."
  },
  {
   "property": "C10",
   "status": "proved",
   "theorems": [
    "VoroCrust.C10_graph_history",
    "VoroCrust.C10_graph_symmetric"
   ],
   "note": "Any history of growth, connections and resets; bounds-checked lists."
  },
  {
   "property": "C11",
   "status": "proved",
   "theorems": [
    "VoroCrust.C11_reenumeration_bijection",
    "VoroCrust.C11_empty_undefined"
   ],
   "note": "Trees from any mixed history. Empty tree is undefined behaviour."
  },
  {
   "property": "C12",
   "status": "proved",
   "theorems": [
    "VoroCrust.C12_tokens_lossless",
    "VoroCrust.C12_words"
   ],
   "note": "All strings and separators; also white-space words."
  },
  {
   "property": "C13",
   "status": "proved",
   "theorems": [
    "VoroCrust.C13_config_meaning",
    "VoroCrust.C13_dispatch",
    "VoroCrust.C13_lines",
    "VoroCrust.C13_words",
    "VoroCrust.C13_white_space"
   ],
   "note": "All files; number parsing is an arbitrary function."
  },
  {
   "property": "C14",
   "status": "proved",
   "theorems": [
    "VoroCrust.C14_command_line"
   ],
   "note": "Complete decision table."
  },
  {
   "property": "C15",
   "status": "proved",
   "theorems": [
    "VoroCrust.C15_merge_keeps_faces"
   ],
   "note": "Merge step, before welding (welding is C17)."
  },
  {
   "property": "C16",
   "status": "proved",
   "theorems": [
    "VoroCrust.C16_seed_file",
    "VoroCrust.C16_sphere_file"
   ],
   "note": "All files."
  },
  {
   "property": "C17",
   "status": "partial",
   "theorems": [
    "VoroCrust.C17_weld_partial",
    "VoroCrust.C17_no_degenerate_after_weld",
    "VoroCrust.C17_degenerate_kept_false"
   ],
   "note": "Exact reals. Full claim except that degenerate input faces survive when no point is welded (proved false with a witness)."
  },
  {
   "property": "C18",
   "status": "proved",
   "theorems": [
    "VoroCrust.C18_remove_isolated"
   ],
   "note": "Triangle meshes with valid corner indices; the caller reads OBJ triangles."
  },
  {
   "property": "C19",
   "status": "proved",
   "theorems": [
    "VoroCrust.C19_point_faces_transpose",
    "VoroCrust.C19_invalid_corner_undefined"
   ],
   "note": "Both count and fill passes modelled with bounds-checked buffers."
  },
  {
   "property": "C20",
   "status": "proved",
   "theorems": [
    "VoroCrust.C20_edge_faces",
    "VoroCrust.C20_symmetric",
    "VoroCrust.C20_repeated_corner_false"
   ],
   "note": "Distinct end points; the witness shows the repeated-corner case where count and list disagree."
  },
  {
   "property": "C21",
   "status": "partial",
   "theorems": [
    "VoroCrust.C21_watertight_partial",
    "VoroCrust.C21_repeated_corner_false"
   ],
   "note": "Full equivalence for faces without repeated corners; false for faces with a repeated corner (witness)."
  },
  {
   "property": "C22",
   "status": "partial",
   "theorems": [
    "VoroCrust.C22_validation_partial",
    "VoroCrust.C22_open_edge_accepted_false"
   ],
   "note": "Exact acceptance criterion proved; open edges between edge/corner spheres are accepted (witness)."
  },
  {
   "property": "C23",
   "status": "partial",
   "theorems": [
    "VoroCrust.C23_orientation_partial",
    "VoroCrust.C23_consistent_unchanged",
    "VoroCrust.C23_orientable_left_inconsistent_false",
    "VoroCrust.C23_uninitialised_flag_false",
    "VoroCrust.C23_repeated_corner_undefined"
   ],
   "note": "Termination, reversal only, and opposite traversal along every propagation step proved; the pass can stop early or start from an arbitrary seed and leave an orientable mesh inconsistent (witness)."
  },
  {
   "property": "C24",
   "status": "proved",
   "theorems": [
    "VoroCrust.C24_point_covered",
    "VoroCrust.C24_no_spheres",
    "VoroCrust.C24_point_covered_by"
   ],
   "note": "exact reals; completeness needs Lipschitz radii as in the claim"
  },
  {
   "property": "C25",
   "status": "proved",
   "theorems": [
    "VoroCrust.C25_face_covered",
    "VoroCrust.C25_edge_covered"
   ],
   "note": "exact reals"
  },
  {
   "property": "C26",
   "status": "proved",
   "theorems": [
    "VoroCrust.C26_lipschitz_brute"
   ],
   "note": "exact reals; also at most two sweeps and largest Lipschitz minorant"
  },
  {
   "property": "C27",
   "status": "partial",
   "theorems": [
    "VoroCrust.C27_lipschitz_tree_partial",
    "VoroCrust.C27_isolated_unchanged",
    "VoroCrust.C27_distant_pair_false",
    "VoroCrust.C27_empty_undefined"
   ],
   "note": "false for distant pairs with slope below 1/2 (C27_distant_pair_false); proved: termination, no growth, condition for pairs within twice the radius, global for slope >= 1/2"
  },
  {
   "property": "C28",
   "status": "proved",
   "theorems": [
    "VoroCrust.C28_overlapping_spheres"
   ],
   "note": "exact reals"
  },
  {
   "property": "C29",
   "status": "proved",
   "theorems": [
    "VoroCrust.C29_resolve_sliver"
   ],
   "note": "the distance to the triple's points is an arbitrary function"
  },
  {
   "property": "C30",
   "status": "proved",
   "theorems": [
    "VoroCrust.C30_power_vertex",
    "VoroCrust.C30_power_vertex_geometry"
   ],
   "note": "exact reals"
  },
  {
   "property": "C31",
   "status": "proved",
   "theorems": [
    "VoroCrust.C31_empty_pool_means_covered",
    "VoroCrust.C31_all_patches",
    "VoroCrust.C31_edges_covered"
   ],
   "note": "Real arithmetic. Trees may be empty. Tolerances are those of face_covered (1e-8). Growing trees is a hypothesis: between two refinements the loop only calls add_tree_point. The claim is about the end of the sampling loop; later shrinking passes are C26 and C29."
  },
  {
   "property": "C32",
   "status": "proved",
   "theorems": [
    "VoroCrust.C32_parallel_eq_sequential",
    "VoroCrust.C32_thread_count_irrelevant",
    "VoroCrust.C32_sequential_build_runs"
   ],
   "note": "All interleavings of both parallel regions; the runtime is assumed to start exactly the requested number of threads, and reading the shared trees has no side effect."
  },
  {
   "property": "C33",
   "status": "proved",
   "theorems": [
    "VoroCrust.C33_face_codes",
    "VoroCrust.C33_face_start",
    "VoroCrust.C33_edge_codes",
    "VoroCrust.C33_edge_start"
   ],
   "note": "Any midpoint function, so also in floating point."
  },
  {
   "property": "C34",
   "status": "proved",
   "theorems": [
    "VoroCrust.C34_patches_partition",
    "VoroCrust.C34_patches_disjoint",
    "VoroCrust.C34_no_patch_undefined"
   ],
   "note": "num_patches is passed by reference and becomes 1 when there are fewer faces than patches; size_t overflow is not modelled."
  },
  {
   "property": "C35",
   "status": "proved",
   "theorems": [
    "VoroCrust.C35_discrete_cdf",
    "VoroCrust.C35_zero_cdf",
    "VoroCrust.C35_empty_table_undefined",
    "VoroCrust.C35_search_in_range",
    "VoroCrust.C35_search_interval",
    "VoroCrust.C35_search_empty_undefined",
    "VoroCrust.C35_weight_table",
    "VoroCrust.C35_weighted_draw"
   ],
   "note": "exact reals for the intervals; index range for any comparison"
  },
  {
   "property": "C36",
   "status": "proved",
   "theorems": [
    "VoroCrust.C36_draws_in_range",
    "VoroCrust.C36_refines_integer_generator",
    "VoroCrust.C36_seeded_state"
   ],
   "note": "for every rounding that is exact on multiples of 2^-53 of magnitude at most 1"
  },
  {
   "property": "C37",
   "status": "proved",
   "theorems": [
    "VoroCrust.C37_box",
    "VoroCrust.C37_simplex",
    "VoroCrust.C37_simplex_reaches"
   ],
   "note": "exact reals"
  },
  {
   "property": "C38",
   "status": "proved",
   "theorems": [
    "VoroCrust.C38_corner_spheres"
   ],
   "note": "Exact real arithmetic; the nearest non-smooth point and sizing queries are parameters (their own correctness is C06). Includes maximality of the radii."
  },
  {
   "property": "C39",
   "status": "partial",
   "theorems": [
    "VoroCrust.C39_seed_pairs_partial",
    "VoroCrust.C39_close_centres_false",
    "VoroCrust.C39_unlucky_direction_undefined"
   ],
   "note": "Proved for overlapping triples in general position (1e-5) and lucky random directions: pairs are mirror images on all three spheres and outside all others, partners exist, everything not near a fourth sphere is stored, seeds of a side are apart. Missing: close centres and unlucky directions, where the claim fails (witnesses proved)."
  },
  {
   "property": "C40",
   "status": "proved",
   "theorems": [
    "VoroCrust.C40_regions_are_components",
    "VoroCrust.C40_exterior_is_zero",
    "VoroCrust.C40_graph_of_history",
    "VoroCrust.C40_no_connection_undefined",
    "VoroCrust.C40_no_seeds_undefined"
   ],
   "note": "Flood fill over the seed graph: region ids are equal exactly for seeds joined by a path, the exterior seed's region is 0, ids are consecutive. Seed graphs are those add_graph_connection builds. A graph without any connection, and an empty seed set, are shown to be undefined behaviour."
  },
  {
   "property": "C41",
   "status": "partial",
   "theorems": [
    "VoroCrust.C41_merge_partial",
    "VoroCrust.C41_single_parent_partial",
    "VoroCrust.C41_chain_lost_false"
   ],
   "note": "Every merge joins regions that are linked by contacts of the input, the exterior stays alone, ids are renumbered without gaps; if no region is the larger side of two different contacts the result is the full closure. The full statement is false of the code: contacts (2,3),(1,3) leave a chain unmerged (C41_chain_lost_false)."
  },
  {
   "property": "C42",
   "status": "proved",
   "theorems": [
    "VoroCrust.C42_segment_projection",
    "VoroCrust.C42_equal_ends_undefined",
    "VoroCrust.C42_line_projection"
   ],
   "note": "Exact real arithmetic; degenerate segments divide zero by zero."
  },
  {
   "property": "C43",
   "status": "partial",
   "theorems": [
    "VoroCrust.C43_triangle_projection_partial",
    "VoroCrust.C43_degenerate_false",
    "VoroCrust.C43_degenerate_witness"
   ],
   "note": "False for collinear corners (C43_degenerate_false: the query itself is returned with distance 0). For triangles with a normal the reported distance is a lower bound, and the point is the nearest one of the triangle except within the tolerance of the inside test, which is stated; exact real arithmetic."
  },
  {
   "property": "C44",
   "status": "proved",
   "theorems": [
    "VoroCrust.C44_normal_component"
   ],
   "note": "Exact real arithmetic, any dimension."
  },
  {
   "property": "C45",
   "status": "proved",
   "theorems": [
    "VoroCrust.C45_sparse_vector_is_a_map",
    "VoroCrust.C45_null_read_undefined"
   ],
   "note": "For any scalar type and any test for negligible values; reading through a null pointer is shown to be undefined."
  },
  {
   "property": "C46",
   "status": "proved",
   "theorems": [
    "VoroCrust.C46_sparse_dot",
    "VoroCrust.C46_dense_dot",
    "VoroCrust.C46_sparse_dot_of_histories"
   ],
   "note": "Over any commutative ring (exact arithmetic)."
  },
  {
   "property": "C47",
   "status": "proved",
   "theorems": [
    "VoroCrust.C47_cholesky_solver",
    "VoroCrust.C47_no_rows_undefined",
    "VoroCrust.C47_zero_diagonal_undefined",
    "VoroCrust.C47_factor_then_solve"
   ],
   "note": "Over any field (exact arithmetic); C47_factor_then_solve composes with C70 over the reals."
  },
  {
   "property": "C48",
   "status": "partial",
   "theorems": [
    "VoroCrust.C48_counter_partial",
    "VoroCrust.C48_lost_update_false"
   ],
   "note": "False for two threads: the shared counter is not atomic, a lost update makes the new arrays too small and the fill loop writes outside them. Proved for all schedules: the counter never exceeds the accepted seeds, is positive when any is accepted, the result is defined exactly when it is exact, and it is exact when one thread makes all increments."
  },
  {
   "property": "C49",
   "status": "partial",
   "theorems": [
    "VoroCrust.C49_active_front_partial",
    "VoroCrust.C49_neighbours_active_false",
    "VoroCrust.C49_empty_front_undefined",
    "VoroCrust.C49_coincident_seeds_false"
   ],
   "note": "The exclusion distance holds for active seeds that are not consecutive in the shuffled front, and no inactive seed is without a reason. It fails for consecutive ones (inner loop stops at i-1): any two first seeds are active, and one round can put two new seeds at the same point. An empty front is undefined behaviour."
  },
  {
   "property": "C50",
   "status": "proved",
   "theorems": [
    "VoroCrust.C50_interior_seeds"
   ],
   "note": "For all inputs, rounds, threads and random numbers; hypotheses: a seed inside, feature spheres L-Lipschitz, at least as many surface spheres as corners and sizing points (C62), rounding exact on array lengths. A run whose random numbers are used up has no result; that the rounds end is C111."
  },
  {
   "property": "C51",
   "status": "partial",
   "theorems": [
    "VoroCrust.C51_corners_partial",
    "VoroCrust.C51_cell_partial",
    "VoroCrust.C51_generic_partial",
    "VoroCrust.C51_gap_partial",
    "VoroCrust.C51_grid"
   ],
   "note": "Every Voronoi point is kept, for all seeds (C51_corners_partial, C51_cell_partial). The returned polytope is exactly the Voronoi cell for seeds in general position (C51_generic_partial), and for seeds with gaps: any number of bisectors may pass through a corner, but no crossing point of three planes is beyond a bisector by a positive amount of 1e-10 or less (C51_gap_partial). C51_grid derives this for integer seeds within 100. Missing: seeds without gaps. Cases: CellRun.tetrahedron, CellRun.generic_cell, cube_found (27 points of the cubic lattice)."
  },
  {
   "property": "C52",
   "status": "partial",
   "theorems": [
    "VoroCrust.C52_defined_partial",
    "VoroCrust.C52_generic_partial",
    "VoroCrust.C52_gap_partial",
    "VoroCrust.C52_single_seed_false",
    "VoroCrust.C52_zero_radius_false",
    "VoroCrust.C52_tiny_radius_undefined"
   ],
   "note": "A bounded cell of seeds in general position, or of seeds with gaps (degenerate corners allowed), is found. The unrestricted statement is false: one place for all seeds and sizing 0 never end, a tiny sizing gives undefined behaviour. Missing: seeds without gaps."
  },
  {
   "property": "C53",
   "status": "proved",
   "theorems": [
    "VoroCrust.C53_welding"
   ],
   "note": "Stated for the table of corners that meshCells builds; the fuel it needs is shown to exist. Case: CellRun.case_cells."
  },
  {
   "property": "C54",
   "status": "proved",
   "theorems": [
    "VoroCrust.C54_faces",
    "VoroCrust.C54_face_listed"
   ],
   "note": "Count and fill agree as the filled array has no gap and no out-of-bounds write. C54_face_listed adds that no face is left out. Cases: CellRun.case_cells, CellRun.case_face."
  },
  {
   "property": "C55",
   "status": "proved",
   "theorems": [
    "VoroCrust.C55_vcg_file",
    "VoroCrust.C55_from_cells",
    "VoroCrust.C55_no_cells_undefined"
   ],
   "note": "C55_vcg_file for any mesh with faces between a seed inside and another seed; C55_from_cells shows that the cells, mesh and cell lists of the driver give such a mesh (case: CellRun.case_cells). C55_no_cells_undefined is the division by zero. The text of the numbers is not modelled."
  },
  {
   "property": "C56",
   "status": "proved",
   "theorems": [
    "VoroCrust.C56_cell_faces_transpose"
   ],
   "note": "The list of a cell holds exactly the faces naming it, each once, and the count array is the length, for all face arrays with seed indices in range."
  },
  {
   "property": "C57",
   "status": "proved",
   "theorems": [
    "VoroCrust.C57_removal"
   ],
   "note": "Kept seeds exactly, in order; removal criterion, sizes, and written points are characterised; radii >= 0."
  },
  {
   "property": "C58",
   "status": "partial",
   "theorems": [
    "VoroCrust.C58_monitoring_points_partial",
    "VoroCrust.C58_on_sharp_edge_false"
   ],
   "note": "All draws in [0,1], every monotone rounding of the product that is exact on integers. The points are distinct seeds after the surface seeds; the theorem _false shows a run whose monitoring point is a seed on a sharp edge inside a corner sphere."
  },
  {
   "property": "C59",
   "status": "partial",
   "theorems": [
    "VoroCrust.C59_neighbours_partial",
    "VoroCrust.C59_shared_point_false"
   ],
   "note": "False: the query point is shared between threads; a schedule is given under which a seed gets the neighbours of another and keeps a size that violates the Lipschitz condition. Proved: schedules that do not interrupt an iteration give the sequential lists."
  },
  {
   "property": "C60",
   "status": "partial",
   "theorems": [
    "VoroCrust.C60_clean_partial",
    "VoroCrust.C60_clean_input",
    "VoroCrust.C60_one_degenerate",
    "VoroCrust.C60_release_undefined",
    "VoroCrust.C60_skipped_false"
   ],
   "note": "The claim is false of the code: C60_skipped_false. C60_clean_partial gives what does hold for every list of faces: at most the last face kept is not processed. With exactly one degenerate face, C60_one_degenerate says when. C60_release_undefined: with any degenerate face the caller's release deletes twice."
  },
  {
   "property": "C61",
   "status": "partial",
   "theorems": [
    "VoroCrust.C61_multiplicity",
    "VoroCrust.C61_once_partial",
    "VoroCrust.C61_valence_three_false",
    "VoroCrust.C61_orientation_false"
   ],
   "note": "Exact multiplicity of every listed edge for every triangle mesh without repeated corners; each sharp edge once if no edge has more than two faces and the two faces of an edge run through it in opposite directions. False otherwise: an edge of three faces is listed three times; with inconsistent orientation a sharp edge is missing or listed twice. The angle test is a parameter."
  },
  {
   "property": "C62",
   "status": "partial",
   "theorems": [
    "VoroCrust.C62_buffers_partial",
    "VoroCrust.C62_small_buffers_undefined"
   ],
   "note": "False: the arrays of the corner and sizing trees have one entry per surface sphere; with more corners or sizing points they are overrun, for all inputs. Proved: with at most as many, all trees are built and hold their points."
  },
  {
   "property": "C63",
   "status": "proved",
   "theorems": [
    "VoroCrust.C63_chebyshev",
    "VoroCrust.C63_basis",
    "VoroCrust.C63_dimension_zero_undefined"
   ],
   "note": "For every dimension from one on and every order; real arithmetic, size_t unbounded. Dimension 0 is undefined."
  },
  {
   "property": "C64",
   "status": "partial",
   "theorems": [
    "VoroCrust.C64_all_histories",
    "VoroCrust.C64_one_file_partial",
    "VoroCrust.C64_close",
    "VoroCrust.C64_second_open_false",
    "VoroCrust.C64_no_handle_false"
   ],
   "note": "For all histories: closing without a file throws, only open handles are closed, the number of handles left open is the number of opens while a file was open. At most one open file and none left after destruction only if the caller opens files only when none is open; false otherwise, with a witness. Assumes the library gives out no handle in use."
  },
  {
   "property": "C65",
   "status": "proved",
   "theorems": [
    "VoroCrust.C65_obj_file",
    "VoroCrust.C65_corner_reference"
   ],
   "note": "All files; number parsing is an arbitrary function; before welding."
  },
  {
   "property": "C66",
   "status": "partial",
   "theorems": [
    "VoroCrust.C66_normals_partial",
    "VoroCrust.C66_stale_normal_false"
   ],
   "note": "Holds for consistently oriented input; normals of reversed faces are stale (witness)."
  },
  {
   "property": "C67",
   "status": "proved",
   "theorems": [
    "VoroCrust.C67_adjust_orientation",
    "VoroCrust.C67_no_points_undefined"
   ],
   "note": "Exact reals."
  },
  {
   "property": "C68",
   "status": "proved",
   "theorems": [
    "VoroCrust.C68_unit_length",
    "VoroCrust.C68_zero_draw_undefined",
    "VoroCrust.C68_no_dimension_undefined"
   ],
   "note": "exact reals; a draw of 0, which C36 does not exclude, gives NaN"
  },
  {
   "property": "C69",
   "status": "proved",
   "theorems": [
    "VoroCrust.C69_dart_on_its_face",
    "VoroCrust.C69_dart_on_its_edge",
    "VoroCrust.C69_empty_pool_undefined"
   ],
   "note": "Real arithmetic."
  },
  {
   "property": "C70",
   "status": "proved",
   "theorems": [
    "VoroCrust.C70_cholesky_factorization",
    "VoroCrust.C70_finds_the_factor"
   ],
   "note": "Exact real arithmetic."
  },
  {
   "property": "C71",
   "status": "proved",
   "theorems": [
    "VoroCrust.C71_power_vertex",
    "VoroCrust.C71_success_possible",
    "VoroCrust.C71_count_undefined"
   ],
   "note": "Exact reals. Centres must be spread: each at least 1e-5 from the span of the others (the tolerances of the code). A wrong number of spheres is undefined behaviour."
  },
  {
   "property": "C72",
   "status": "proved",
   "theorems": [
    "VoroCrust.C72_imposed_seeds"
   ],
   "note": "For all schedules under which the call stays in its arrays (see C48, C62); 0 <= L < 1, sphere sizes nonnegative and L-Lipschitz."
  },
  {
   "property": "C73",
   "status": "partial",
   "theorems": [
    "VoroCrust.C73_moved_partial",
    "VoroCrust.C73_monitoring_point_removed_false",
    "VoroCrust.C57_removal"
   ],
   "note": "False in general: a point can be moved to a seed that is removed in the same call. Proven if the closest seeds of the moved points are among the protected ones or outside the spheres of the imposed points that are seeds. C57_removal (last clause) tells what is written in every case: the closest seed of the mesh before the removal."
  },
  {
   "property": "C74",
   "status": "partial",
   "theorems": [
    "VoroCrust.C74_mesher_lipschitz_partial",
    "VoroCrust.C74_distant_pair_false"
   ],
   "note": "False for L < 1/2: pairs further apart than twice the size are never compared. Proved: termination, only sizes change, bounds, the condition for compared pairs, and for all pairs when L >= 1/2."
  },
  {
   "property": "C75",
   "status": "proved",
   "theorems": [
    "VoroCrust.C75_round"
   ],
   "note": "Exact arithmetic. The state hypothesis FrontInv is preserved by every round and holds at the start (C50). The closest sphere is the closest of all seeds within 3/(1-L) radii."
  },
  {
   "property": "C76",
   "status": "proved",
   "theorems": [
    "VoroCrust.C76_trim",
    "VoroCrust.initPoly_wf"
   ],
   "note": "The initial box is well formed (initPoly_wf) and trimming keeps polytopes well formed (C76_trim), so every polytope of the construction is."
  },
  {
   "property": "C77",
   "status": "proved",
   "theorems": [
    "VoroCrust.C77_cell_graph"
   ],
   "note": "Case: CellRun.tetrahedron."
  },
  {
   "property": "C78",
   "status": "proved",
   "theorems": [
    "VoroCrust.C78_corners",
    "VoroCrust.C78_from_mesh"
   ],
   "note": "For every edge table in range, repetitions included; the angle test is any symmetric test, and the one of the code (over the reals) is symmetric."
  },
  {
   "property": "C79",
   "status": "partial",
   "theorems": [
    "VoroCrust.C79_coordinates_partial"
   ],
   "note": "setCoordinatesOnAxis is in bounds exactly if the list has an entry for every node; for setCoordinates the claim is false for every positive number of nodes (ints handed over as doubles). Sizes only, not the values."
  },
  {
   "property": "C80",
   "status": "proved",
   "theorems": [
    "VoroCrust.C80_connectivity",
    "VoroCrust.C80_overflow_undefined"
   ],
   "note": "Bounds-checked writes, int conversion modelled; the library calls themselves and the coordinates rounded to float are not."
  },
  {
   "property": "C81",
   "status": "proved",
   "theorems": [
    "VoroCrust.C81_edge_spheres",
    "VoroCrust.C81_result",
    "VoroCrust.C81_no_corner_undefined",
    "VoroCrust.C81_no_sphere_undefined",
    "VoroCrust.C81_minimum_radius_false"
   ],
   "note": "Partial correctness: the loops carry fuel and the statement is about runs that return. Without any corner sphere (closed loops of sharp edges) or with every edge inside one corner sphere the code dereferences an empty tree (the two _undefined theorems). A returning run is exhibited (oneEdge_returns); it also shows that R_MIN is not a minimum of the radii (C81_minimum_radius_false)."
  },
  {
   "property": "C82",
   "status": "proved",
   "theorems": [
    "VoroCrust.C82_surface_spheres",
    "VoroCrust.C82_sampling_defined",
    "VoroCrust.C82_no_sphere_undefined",
    "VoroCrust.C82_no_faces_undefined",
    "VoroCrust.C82_stale_radius_bug",
    "VoroCrust.C82_threads_undefined",
    "VoroCrust.C82_minimum_radius_false",
    "VoroCrust.C82_some_seed_false"
   ],
   "note": "Partial correctness: the loops carry fuel and the statement is about runs that return; a returning run is exhibited (oneFace_returns). The threads run one after the other within each parallel region. The general position of the final spheres is the hypothesis of C39. Found on the way: the spheres near a dart are looked up with the radius of the previous dart, unwritten at first for the second thread; empty surfaces and surfaces inside edge and corner spheres are undefined; R_MIN is no minimum."
  },
  {
   "property": "C83",
   "status": "partial",
   "theorems": [
    "VoroCrust.C83_narrow_regions_partial",
    "VoroCrust.C83_narrow_regions_false"
   ],
   "note": "False of the code: faces[f][2] is used for two corners, so the pass never shrinks anything. Proved: it is the identity for every input; a configuration of two parallel triangles violates the limit."
  },
  {
   "property": "C84",
   "status": "proved",
   "theorems": [
    "VoroCrust.C84_fan_marks",
    "VoroCrust.C84_regions",
    "VoroCrust.C84_separated",
    "VoroCrust.C84_watertight_fans",
    "VoroCrust.C84_pinch_false"
   ],
   "note": "For models without sharp features. C84_regions: regions are exactly the classes of seeds joined along one side of the surface. C84_separated: with any consistent inside/outside assignment no region contains both. C84_watertight_fans: the validation at the end of the sampling (C82) provides the edge condition. C84_pinch_false: with a sphere where two fans meet, the two seeds of some pair always end in one region."
  },
  {
   "property": "C85",
   "status": "partial",
   "theorems": [
    "VoroCrust.C85_edge_marks_partial",
    "VoroCrust.C85_sectors_partial",
    "VoroCrust.C85_regions_partial",
    "VoroCrust.C85_no_neighbor_undefined",
    "VoroCrust.C85_feature_triangle_bug",
    "VoroCrust.C85_leak_bug"
   ],
   "note": "Proved where the triangles around an edge sphere form sheets of at least two triangles whose inner spheres are surface spheres, at different angles outside the tolerance of get_point_angle. False otherwise: a triangle of an edge sphere and two further edge or corner spheres, which occurs at corners, can stay unmarked, and then its seeds on both sides of the surface are connected (C85_feature_triangle_bug, C85_leak_bug, with a pyramid as example). Without an edge or corner sphere among the neighbours the code reads an empty array."
  },
  {
   "property": "C86",
   "status": "partial",
   "theorems": [
    "VoroCrust.C86_point_angle_partial",
    "VoroCrust.C86_tolerance_false"
   ],
   "note": "Exact outside the tolerance of 1e-10 around the axes; within it the order can be wrong."
  },
  {
   "property": "C87",
   "status": "partial",
   "theorems": [
    "VoroCrust.C87_edge_seeds_partial",
    "VoroCrust.C87_single_edge_sphere_undefined",
    "VoroCrust.C87_nothing_ahead_undefined",
    "VoroCrust.C87_inside_corner_false"
   ],
   "note": "Proved where every edge sphere has neighbours on both sides which it meets. Otherwise a table is read outside its bounds. New seeds are not compared with corner spheres, other edge spheres or each other."
  },
  {
   "property": "C88",
   "status": "proved",
   "theorems": [
    "VoroCrust.C88_trim_spoke",
    "VoroCrust.C88_small_scale_false"
   ],
   "note": "The tolerance is part of the statement; C88_small_scale_false shows that at small scale (seeds 1e-9 apart) it leaves the spoke uncut."
  },
  {
   "property": "C89",
   "status": "proved",
   "theorems": [
    "VoroCrust.C89_neighbors",
    "VoroCrust.C89_wanted",
    "VoroCrust.C89_too_many_wanted_never_ends"
   ],
   "note": "The search for a wanted number of neighbours does not end if there are fewer seeds."
  },
  {
   "property": "C90",
   "status": "proved",
   "theorems": [
    "VoroCrust.C90_read_file",
    "VoroCrust.C90_tree_file",
    "VoroCrust.C90_blank_line_undefined",
    "VoroCrust.C90_digits_false"
   ],
   "note": "Printing and parsing are arbitrary functions with the stated agreement; numDim >= 1, numDim >= _num_dim. C90_read_file characterises all files, C90_tree_file the round trip including the cases where attributes are lost or reading is undefined. C90_blank_line_undefined and C90_digits_false are findings."
  },
  {
   "property": "C91",
   "status": "proved",
   "theorems": [
    "VoroCrust.C91_add_point",
    "VoroCrust.C91_attributes",
    "VoroCrust.C91_good_records",
    "VoroCrust.C91_last_index_undefined"
   ],
   "note": "Records only; the search links are C04. C91_last_index_undefined is a finding: the check compares with the count although the array has only count entries."
  },
  {
   "property": "C92",
   "status": "proved",
   "theorems": [
    "VoroCrust.C92_edge_cloud",
    "VoroCrust.C92_face_cloud",
    "VoroCrust.C92_distances",
    "VoroCrust.C92_empty_undefined",
    "VoroCrust.C92_size",
    "VoroCrust.C92_empty_size_undefined"
   ],
   "note": "Clouds of any number of points; exact arithmetic."
  },
  {
   "property": "C93",
   "status": "proved",
   "theorems": [
    "VoroCrust.C93_chain",
    "VoroCrust.C93_corners",
    "VoroCrust.C93_edges",
    "VoroCrust.C93_sampled",
    "VoroCrust.C93_loops_undefined"
   ],
   "note": "The number of cloud points is the one of the code (100000 and 500000). The result is about runs that return; the loops carry fuel, and the run of an octahedron returns (octahedron_returns). Closed loops of sharp edges without a sharp corner are undefined (example: a flat octagon, octagon_undefined); blades_defined is the example for a chain."
  },
  {
   "property": "C94",
   "status": "proved",
   "theorems": [
    "VoroCrust.C94_minimum_radius_bug",
    "VoroCrust.C94_smooth_undefined",
    "VoroCrust.C94_destructor"
   ],
   "note": "What detect_features_generate_point_clouds computes is a parameter; only that it leaves _face_normal and _num_faces alone is used. Example: minInput_undefined."
  },
  {
   "property": "C95",
   "status": "proved",
   "theorems": [
    "VoroCrust.C95_least_squares",
    "VoroCrust.C95_full_rank",
    "VoroCrust.C95_dependent_columns_false",
    "VoroCrust.C95_wide_undefined"
   ],
   "note": "Exact arithmetic with NaN as a separate value. C95_dependent_columns_false shows that the condition on the columns is needed; C95_wide_undefined lists the undefined calls."
  },
  {
   "property": "C96",
   "status": "proved",
   "theorems": [
    "VoroCrust.C96_equidistant",
    "VoroCrust.C96_number_of_seeds",
    "VoroCrust.C96_flat_false"
   ],
   "note": "Exact arithmetic with NaN as a separate value. C96_flat_false: a flat set of seeds gives a wrong vertex and the answer yes."
  },
  {
   "property": "C97",
   "status": "proved",
   "theorems": [
    "VoroCrust.C97_add_row",
    "VoroCrust.C97_finds_the_row",
    "VoroCrust.C97_row_by_row",
    "VoroCrust.C97_row_by_row_finds",
    "VoroCrust.C97_empty_row_undefined"
   ],
   "note": "Exact arithmetic over the reals with the tolerance for dropped entries."
  },
  {
   "property": "C98",
   "status": "partial",
   "theorems": [
    "VoroCrust.C98_interior_run_partial",
    "VoroCrust.C98_not_removed_false"
   ],
   "note": "Everything as stated except the last clause: proved from index n + 2k + m on instead of n + k + m, because num_imposed_seeds_added also counts the k seeds added for sharp edges; C98_not_removed_false is a run where a seed of the front stays inside the sphere of an imposed point."
  },
  {
   "property": "C99",
   "status": "proved",
   "theorems": [
    "VoroCrust.C99_regression",
    "VoroCrust.C99_reproduced",
    "VoroCrust.C99_nearest",
    "VoroCrust.C99_estimate",
    "VoroCrust.C99_default_basis_false"
   ],
   "note": "For runs in which the search for neighbours ends (fuel). Exact arithmetic; columns more than 1e-10 apart as in C95. C99_default_basis_false is the counterexample for the default basis."
  },
  {
   "property": "C100",
   "status": "proved",
   "theorems": [
    "VoroCrust.C100_round_trip",
    "VoroCrust.C100_input_surface",
    "VoroCrust.C100_reread",
    "VoroCrust.C100_digits_false"
   ],
   "note": "The text of a coordinate is any one-word text; what is read back from it is a parameter (16 significant digits in the program). C100_digits_false is the witness that exact printing is needed. Exact real arithmetic in the welding."
  },
  {
   "property": "C101",
   "status": "proved",
   "theorems": [
    "VoroCrust.C101_trim_exact"
   ],
   "note": "Exact reals with the tolerance of the code. The initial box satisfies the hypotheses (initPoly_shape) and the result satisfies them again. Case: a box corner cut off (example below the theorem)."
  },
  {
   "property": "C102",
   "status": "proved",
   "theorems": [
    "VoroCrust.C102_voronoi_mesh",
    "VoroCrust.CellRun.mesh_case"
   ],
   "note": "voroMesh ends and returns a mesh that satisfies IsVoronoiMesh (vertices exactly the Voronoi vertices of inner cells, each once; faces exactly the common faces, each once, in edge order). General position, separation of 2e-5 and boundedness of the inner cells are hypotheses, met by mesh_case. Exact real arithmetic."
  },
  {
   "property": "C103",
   "status": "proved",
   "theorems": [
    "VoroCrust.C103_file_volumes",
    "VoroCrust.C103_gap",
    "VoroCrust.C103_grid",
    "VoroCrust.CellRun.volume_case",
    "VoroCrust.lattice_file"
   ],
   "note": "VcgVoronoi: cell volumes are the Lebesgue measures of the Voronoi cells, their sum is the measure of the union, one connection line per common face with the area characterised by the volume of the pyramid over the face. C103_gap and C103_grid: the same under the hypotheses of C105 (ties allowed), one line per two cells whose common points are not all on a line. Exact real arithmetic; the printed digits are not modelled. CellRun.volume_case: a cell of volume 48.6; lattice_file: eight cells of volume 1."
  },
  {
   "property": "C104",
   "status": "proved",
   "theorems": [
    "VoroCrust.C104_triangle_is_face",
    "VoroCrust.C104_run",
    "VoroCrust.C104_regions"
   ],
   "note": "C104_triangle_is_face: exact, for further seeds outside the spheres. C104_run: from surfaceSpheres (C82) to the seeds of interiorRun (C98), with the tolerance 1e-10 of the mesher; for triangles of surface spheres, or all triangles of models without edge spheres. C104_regions: the hypotheses of C84 follow from the stored seeds. Hypothesis not ensured by the code: NoGrazing, no sphere touches a common point of three others from outside within 1e-10. An edge between two non-surface spheres must be shared (the validation skips such edges)."
  },
  {
   "property": "C105",
   "status": "proved",
   "theorems": [
    "VoroCrust.C105_gap",
    "VoroCrust.C105_grid",
    "VoroCrust.lattice_mesh"
   ],
   "note": "voroMesh ends and returns a mesh that satisfies IsDiagramMesh. VertexGap, GapPos (gaps of 1e-10 at the vertices), SearchClear (the cell does not reach the search sphere within 1e-10), FewNearest (at most 102 nearest seeds at a point, because of the step limit of the face walk), separation of 2e-5 and bounded cells are hypotheses; C105_grid derives the gaps for integer coordinates. lattice_mesh: 64 lattice points with eight inner cells meeting at one vertex. Exact real arithmetic."
  },
  {
   "property": "C106",
   "status": "proved",
   "theorems": [
    "VoroCrust.C106_surface_in_mesh"
   ],
   "note": "Joins C104 and C105. The tetrahedron of C104 with nine seeds is the case (tet_mesh): each of its four sides is a face of the mesh, once."
  },
  {
   "property": "C107",
   "status": "proved",
   "theorems": [
    "VoroCrust.C107_explicit_mesh",
    "VoroCrust.C107_grid",
    "VoroCrust.C107_seeds_file"
   ],
   "note": "Run of the driver on top of C16, C41, C56, C80, C103 and C105, for seeds that meet the conditions of C105; the calls of the Exodus library and console output are not modelled. Case: a cubic lattice with eight inner cells, from seeds and from a file, with both files written (lattice_run, lattice_file_run)."
  },
  {
   "property": "C108",
   "status": "proved",
   "theorems": [
    "VoroCrust.C108_no_crossing",
    "VoroCrust.C108_run"
   ],
   "note": "C108_no_crossing: any tolerance; exact for further seeds outside the spheres. C108_run: from surfaceSpheres (C82) to the seeds of interiorRun (C98), for triangles of surface spheres, or all triangles of models without edge spheres; hypotheses as in C104. Case: the tetrahedron of C104 and the diagonal of its middle cell (tet_no_crossing)."
  },
  {
   "property": "C109",
   "status": "proved",
   "theorems": [
    "VoroCrust.C109_mesh_run",
    "VoroCrust.C109_execute",
    "VoroCrust.C109_no_seeds_undefined",
    "VoroCrust.C109_octahedron_undefined"
   ],
   "note": "From spheres and seeds to the files as one run. Concrete case: tet_run (Props/RunCase.lean), four spheres around a tetrahedron, whole second part of the run with a VCG file of four cells. C109_execute puts the sampling of C93 in front; its hypotheses on the sample are not shown for a concrete input, only those of the second part are. The mesh part keeps the conditions of C105. C109_no_seeds_undefined is a finding: no seeds, null pointer."
  },
  {
   "property": "C110",
   "status": "proved",
   "theorems": [
    "VoroCrust.C110_mesh_run",
    "VoroCrust.C110_execute"
   ],
   "note": "From spheres and seeds with sharp edges to the files as one run. Concrete case: gem_run (Props/GemRun.lean), six spheres around an octahedron with a sharp equator; four seeds lie on each circle of two edge spheres, so none is added, for all candidates. C110_execute puts the sampling of C93 in front; its hypotheses on the sample are not shown for a concrete input, only those of the second part are. Seeds added at edges may lie inside edge and corner spheres (C87), so for triangles with such spheres the conforming part needs that none were added. gem_run_ends (Props/GemStops.lean): the same run ends for all random numbers of the interior seeding."
  },
  {
   "property": "C111",
   "status": "proved",
   "theorems": [
    "VoroCrust.C111_seeding_ends",
    "VoroCrust.C111_interior_ends",
    "VoroCrust.C111_smooth_ends",
    "VoroCrust.C111_open_never_ends"
   ],
   "note": "Exact arithmetic. The condition is a fence: a point beyond the inside and clear of the feature spheres is closer to an outer seed. Cases: gem_small_ends (octahedron with sphere size 4 and room for new seeds), gem_run_ends (whole second part of the run), tet_interior_ends (no sharp edges). C111_open_never_ends: without the fence the loop can go on for ever."
  },
  {
   "property": "C112",
   "status": "proved",
   "theorems": [
    "VoroCrust.C112_edge_rounds",
    "VoroCrust.C112_unlucky_never_ends"
   ],
   "note": "Proof by packing for the number of spheres and by a potential for the rounds: a new sphere or a shrinking by the size validation (by a factor of at least 1+1e-8) uses some of it up, the Lipschitz pass does not raise it and has nothing left to do right after itself. Concrete cases: one edge where the function returns, and the same edge with smaller clearance and all random numbers zero where it never does."
  },
  {
   "property": "C113",
   "status": "proved",
   "theorems": [
    "VoroCrust.C113_surface_rounds"
   ],
   "note": "Packing for the spheres and a potential for the passes. Every pass that does not return adds a sphere, shrinks one by a fixed factor (size validation, slivers, crowded seeds, open mesh) or is a Lipschitz pass, which has nothing left to do right after itself. Concrete case: one face where the function returns."
  },
  {
   "property": "C114",
   "status": "proved",
   "theorems": [
    "VoroCrust.C114_ply_round_trip",
    "VoroCrust.C114_ply_ahead",
    "VoroCrust.C114_many_corners_false"
   ],
   "note": "Independent PLY reader; coordinates come back as printed (rd). Finding: a face of 256 or more corners makes the file invalid (uchar count)."
  },
  {
   "property": "C115",
   "status": "proved",
   "theorems": [
    "VoroCrust.C115_sphere_constant",
    "VoroCrust.C115_dimension_42_false",
    "VoroCrust.C115_cell_integral",
    "VoroCrust.C115_cell_volume",
    "VoroCrust.C115_linear",
    "VoroCrust.C115_sample",
    "VoroCrust.C115_search_never_ends",
    "VoroCrust.C115_spoke_end",
    "VoroCrust.C115_open_spoke_end"
   ],
   "note": "Exact real arithmetic; measure and integrals of Mathlib. Findings: in dimension 42 the factorial does not fit in 64 bits; if the integral along the selected spoke is zero the search never ends."
  },
  {
   "property": "C116",
   "status": "proved",
   "theorems": [
    "VoroCrust.C116_seeds_read_back",
    "VoroCrust.C116_points_read_back",
    "VoroCrust.C116_restart",
    "VoroCrust.C116_points_as_seeds_undefined"
   ],
   "note": "Numbers come back as printed (rd, 16 digits in the code). Finding: a file of monitoring points given as seeds file is undefined behaviour."
  },
  {
   "property": "C117",
   "status": "proved",
   "theorems": [
    "VoroCrust.C117_table",
    "VoroCrust.C117_draw",
    "VoroCrust.C117_set_sampling_undefined",
    "VoroCrust.C117_order_zero_false",
    "VoroCrust.C117_stale_table_false",
    "VoroCrust.C117_add_samples_undefined"
   ],
   "note": "For orders of at least one. Findings: set_sampling_function reads a weight that was never set; order zero gives a table that is no sum; suggest_new_sample leaves the table stale; add_samples sets no weights."
  },
  {
   "property": "C118",
   "status": "proved",
   "theorems": [
    "VoroCrust.C118_mean",
    "VoroCrust.C118_between",
    "VoroCrust.C118_found",
    "VoroCrust.C118_at_seed",
    "VoroCrust.C118_plain",
    "VoroCrust.C118_no_neighbor_undefined"
   ],
   "note": "Away from the seeds the mean is there whenever a spoke points towards a seed. Findings: undefined behaviour if no neighbour is found; the estimate of the error is not set at a seed."
  },
  {
   "property": "C119",
   "status": "proved",
   "theorems": [
    "VoroCrust.C119_read_back",
    "VoroCrust.C119_regions_lost",
    "VoroCrust.C119_regions_false",
    "VoroCrust.C119_many_points_undefined"
   ],
   "note": "The numbers must fit an int; the regions are lost (finding)."
  },
  {
   "property": "C120",
   "status": "partial",
   "theorems": [
    "VoroCrust.C120_connectivity_partial",
    "VoroCrust.C120_maps",
    "VoroCrust.C120_node_set",
    "VoroCrust.C120_side_set_false",
    "VoroCrust.C120_side_set_undefined",
    "VoroCrust.C120_title"
   ],
   "note": "Every outcome is characterised; the statement is false for lists that are too short, side sets and long titles."
  },
  {
   "property": "C121",
   "status": "partial",
   "theorems": [
    "VoroCrust.C121_edges",
    "VoroCrust.C121_oriented_partial",
    "VoroCrust.C121_rotation_false"
   ],
   "note": "Proved with the test of the direction as it is in the code, and in full for consistently oriented meshes; false for others (C121_rotation_false)."
  },
  {
   "property": "C122",
   "status": "proved",
   "theorems": [
    "VoroCrust.C122_features",
    "VoroCrust.C122_min_angle",
    "VoroCrust.C122_min_angle_false"
   ],
   "note": "The smallest angle is that of the normals as they are; the sign at edges with faces in the same direction is not used (finding)."
  },
  {
   "property": "C123",
   "status": "partial",
   "theorems": [
    "VoroCrust.C123_side_partial",
    "VoroCrust.C123_side_false",
    "VoroCrust.C123_levels",
    "VoroCrust.C123_polygon_partial",
    "VoroCrust.C123_page",
    "VoroCrust.C123_colours",
    "VoroCrust.C123_drawn",
    "VoroCrust.C123_covered_partial",
    "VoroCrust.C123_white"
   ],
   "note": "Missing, and false of the code: that no part of a band is left out on a side whose first corner is above the upper level by less than 1e-10 (C123_side_false). Exact arithmetic; the printing of the numbers is not modelled."
  },
  {
   "property": "C124",
   "status": "proved",
   "theorems": [
    "VoroCrust.C124_plot_value",
    "VoroCrust.C124_slice_index",
    "VoroCrust.C124_plot_dimensions"
   ],
   "note": "Both findings are part of the characterisation."
  },
  {
   "property": "C125",
   "status": "partial",
   "theorems": [
    "VoroCrust.C125_repair_partial",
    "VoroCrust.C125_corner_flag_false",
    "VoroCrust.C125_returned_false"
   ],
   "note": "Missing, and false of the code: the flag of the corner spheres is never set (that of the edge spheres is set instead) and the value returned is always false."
  },
  {
   "property": "C126",
   "status": "partial",
   "theorems": [
    "VoroCrust.C126_rank_one",
    "VoroCrust.C126_remove_row",
    "VoroCrust.C126_scan_partial",
    "VoroCrust.C126_scan_undefined"
   ],
   "note": "Proved in exact arithmetic with the drop tolerance taken as a test for zero. The last sentence of the statement is false of the code: C126_scan_undefined; C126_scan_partial gives the condition under which it holds."
  },
  {
   "property": "C127",
   "status": "proved",
   "theorems": [
    "VoroCrust.C127_cell",
    "VoroCrust.C127_reached",
    "VoroCrust.C127_volume"
   ],
   "note": "The construction of one face and the search in a sphere are parameters, for all values of which the theorems hold."
  },
  {
   "property": "C128",
   "status": "partial",
   "theorems": [
    "VoroCrust.C128_mesh_partial",
    "VoroCrust.C128_slivers",
    "VoroCrust.C128_file_false",
    "VoroCrust.C128_constant_false",
    "VoroCrust.C128_never_ends",
    "VoroCrust.C128_range"
   ],
   "note": "False of the code where the first pass finds slivers: the outer call writes a file without triangles over the mesh (C128_file_false), the constant is replaced by 0.25 (C128_constant_false), and the recursion has no bound (C128_never_ends). Without slivers it holds (C128_mesh_partial)."
  },
  {
   "property": "C129",
   "status": "partial",
   "theorems": [
    "VoroCrust.C129_life_partial",
    "VoroCrust.C129_samplers_partial",
    "VoroCrust.C129_samplers_undefined",
    "VoroCrust.C129_array_undefined",
    "VoroCrust.C129_array_destroyed"
   ],
   "note": "Proved for every sequence without samplers, and with samplers made once where no clear follows them. False of the code beyond that: a tree with samplers that is cleared deletes them twice, and a tree made from an array of points cannot take a further point."
  },
  {
   "property": "C130",
   "status": "partial",
   "theorems": [
    "VoroCrust.C130_ring",
    "VoroCrust.C130_corners",
    "VoroCrust.C130_closed",
    "VoroCrust.C130_defined_partial",
    "VoroCrust.C130_unset_undefined",
    "VoroCrust.C130_triangle_undefined"
   ],
   "note": "Proved: the seeds, their order and distance, the gaps (where a spoke into a wide gap is stopped by a seed in the gap), the test of the corners. False of the code: an index without a value is read where no seed stops the spoke to the first corner; it is safe where every such spoke is stopped."
  },
  {
   "property": "C131",
   "status": "partial",
   "theorems": [
    "VoroCrust.C131_life_partial",
    "VoroCrust.C131_samples_partial",
    "VoroCrust.C131_suggest_partial",
    "VoroCrust.C131_distinct",
    "VoroCrust.C131_full_undefined",
    "VoroCrust.C131_twice_lost",
    "VoroCrust.C131_clear_undefined",
    "VoroCrust.C131_again_undefined",
    "VoroCrust.C131_suggest_undefined"
   ],
   "note": "Proved for a surrogate that is set up once and gets its seeds by add_new_seed, also after one add_samples that leaves room. False of the code beyond that: add_samples does not make the arrays grow, loses the values of an earlier call and sets no samples; clear_memory keeps the pointers to the samplers and the number of seeds."
  },
  {
   "property": "C132",
   "status": "proved",
   "theorems": [
    "VoroCrust.C132_refine",
    "VoroCrust.C132_life",
    "VoroCrust.C132_emptied"
   ],
   "note": "A pool with no entries would not be freed; the callers make none: edges are sampled only if there are some, and a patch of faces has none only where the model has none."
  },
  {
   "property": "C133",
   "status": "partial",
   "theorems": [
    "VoroCrust.C133_weld",
    "VoroCrust.C133_surface",
    "VoroCrust.C133_life_partial",
    "VoroCrust.C133_removed_undefined",
    "VoroCrust.C133_nofile_undefined"
   ],
   "note": "For all files and weldings. False when the feature detection with a minimum radius removes a degenerate face: then a block is freed twice, for every surface and every face (C133_removed_undefined). Without a file the reading of filenames[0] is undefined, which is why the list has to be non-empty."
  },
  {
   "property": "C134",
   "status": "partial",
   "theorems": [
    "VoroCrust.C134_run",
    "VoroCrust.C134_clean_partial",
    "VoroCrust.C134_lost"
   ],
   "note": "No block is freed that is not allocated, for every run. That nothing is left is false: blocks are lost without sharp edges, without corners, with an imposed point at the place of a seed, and when no mesh file is asked for (C134_lost); what is left is known exactly (C134_run)."
  },
  {
   "property": "C135",
   "status": "partial",
   "theorems": [
    "VoroCrust.C135_seeding_partial",
    "VoroCrust.C135_lost"
   ],
   "note": "False of the code as stated: the array inactive_front_seeds of the last round is never freed, so every run loses one block of length 0 (C135_lost). Proved: all else holds, for every run (C135_seeding_partial)."
  },
  {
   "property": "C136",
   "status": "partial",
   "theorems": [
    "VoroCrust.C136_cell",
    "VoroCrust.C136_mesh",
    "VoroCrust.C136_explicit_partial",
    "VoroCrust.C136_file_partial",
    "VoroCrust.C136_exodus_lost"
   ],
   "note": "False of the code as stated: save_exodus_file never frees its seven arrays, so a mesh written as an Exodus file loses seven blocks (C136_exodus_lost). Proved: the cells and the mesh leave exactly their arrays, and without an Exodus file nothing is left."
  },
  {
   "property": "C137",
   "status": "proved",
   "theorems": [
    "VoroCrust.C137_edges",
    "VoroCrust.C137_impose",
    "VoroCrust.C137_added"
   ],
   "note": "memory of the seeds added beside sharp edges and at imposed points; which spheres are near and which seeds are added are parameters; sizes of the tree arrays are C62"
  },
  {
   "property": "C138",
   "status": "partial",
   "theorems": [
    "VoroCrust.C138_late_partial",
    "VoroCrust.C138_lost"
   ],
   "note": "False of the code as stated: every run loses one array of the front, and more with imposed points, an Exodus file or no mesh (C138_lost). Proved: no block is freed twice, nothing is written past an array, and exactly these blocks are lost, with their number."
  }
 ]
}