{"id": "C01", "title": "Growable arrays never lose, reorder or overrun", "statement": "Starting from an array with positive capacity, after any sequence of add_entry calls the stored prefix is the original prefix followed by the appended values in call order, the count has grown by exactly the number of calls, and every write lands inside the allocation (count < capacity holds after every call).", "quantifier": "all initial arrays with 0 <= count < capacity, all sequences of appended values of any length", "why_tests_cant": "tests append a few hundred values; the overrun guard (double when count==capacity) has to hold at every doubling and for every starting capacity", "anchors": ["src/Meshing/MeshingMemoryHandler.cpp: add_entry (5 overloads)", "src/Meshing/MeshingSmartTree.cpp: add_entry"]}
{"id": "C02", "title": "Sorting returns an ordered permutation and stays in its range", "statement": "quicksort over [left,right] of a valid array terminates, never reads or writes outside [left,right], leaves the rest of the array unchanged, and the range ends up in ascending order and is a permutation of what it was.", "quantifier": "all arrays of any length, all left<=right inside the array, all element values including repeated ones", "why_tests_cant": "Hoare partitioning with unsigned indices fails only for special pivots/duplicates/left=0 patterns; finite samples cannot exclude one", "anchors": ["src/Meshing/MeshingMemoryHandler.cpp: quicksort (3 overloads)", "src/Meshing/MeshingRandomSampler.cpp: quicksort", "src/Meshing/MeshingSmartTree.cpp: quicksort"]}
{"id": "C03", "title": "Sorting with companion arrays keeps records together", "statement": "When quicksort is given companion arrays, the multiset of (key, companion...) records is the same before and after, so every companion value still sits at the index of its own key.", "quantifier": "all key arrays and companion arrays of equal length, all ranges", "why_tests_cant": "lockstep swaps must be right in each of the swap branches for every execution path", "anchors": ["src/Meshing/MeshingMemoryHandler.cpp: quicksort(double*,size_t*)", "src/Meshing/MeshingSmartTree.cpp: quicksort(x,y1,y2,I)"]}
{"id": "C04", "title": "Inserting points into the search tree never loses a point and keeps the search order", "statement": "After any sequence of point insertions every inserted point is reachable from the root exactly once, coordinates are stored unchanged, and for every node all points under its left child are <= it and all points under its right child are > it in that node's split coordinate.", "quantifier": "all finite sequences of points in any dimension >= 1, including duplicates, with arbitrary coordinates", "why_tests_cant": "search-tree shape depends on the whole insertion history; a single misplaced child silently drops a subtree", "anchors": ["src/Meshing/MeshingSmartTree.cpp: add_tree_point, kd_tree_add_point", "src/Meshing/MeshingVoronoiMesher.cpp: kd_tree_add_point"]}
{"id": "C05", "title": "Rebuilding the balanced tree keeps every point exactly once", "statement": "Building a balanced tree over n>=1 points produces a tree in which each of the n indices occurs exactly once and the split-coordinate search order holds; with n=0 the code reads outside its arrays (undefined).", "quantifier": "all point sets of every size n >= 1, all dimensions, all coordinates incl. ties", "why_tests_cant": "the median-target recursion with overlapping ranges and repeated coordinates has unboundedly many shapes", "anchors": ["src/Meshing/MeshingSmartTree.cpp: kd_tree_build_balanced, kd_tree_balance_quicksort, kd_tree_quicksort_adjust_target_position", "src/Meshing/MeshingVoronoiMesher.cpp: build_balanced_kd_tree"]}
{"id": "C06", "title": "Closest-point query equals exhaustive search", "statement": "For any tree obtained by insertions or balanced rebuild, the closest-point query returns a stored eligible point whose distance to the query is minimal among all eligible points (strictly smaller than the incoming bound), and leaves the result untouched exactly when no eligible point beats the incoming bound.", "quantifier": "all trees from any history, all query points, all incoming bounds, all eligibility filters (self exclusion, normal tests, exclusion lists)", "why_tests_cant": "pruning correctness quantifies over all tree shapes and query positions; a wrong prune shows up only on rare geometry", "anchors": ["src/Meshing/MeshingSmartTree.cpp: get_closest_tree_point, kd_tree_get_closest_seed, get_closest_non_smooth_tree_point, get_closest_non_smooth_tree_edge_point", "src/Meshing/MeshingVoronoiMesher.cpp: kd_tree_get_closest_seed"]}
{"id": "C07", "title": "Closest-point pruning survives floating point rounding", "statement": "When every subtraction, multiplication and addition is rounded by any monotone rounding (IEEE double without overflow is one), the pruned search still returns a point minimising the *computed* squared distance among eligible points below the bound.", "quantifier": "all monotone, idempotent, odd rounding functions, all trees, all queries", "why_tests_cant": "no test suite can range over all rounding behaviours", "anchors": ["src/Meshing/MeshingSmartTree.cpp: kd_tree_get_closest_seed 2166-2236"]}
{"id": "C08", "title": "Points-in-sphere query is sound and complete", "statement": "The in-sphere query returns, without repetition, only stored points with squared distance < (1+2e-6) r^2, and returns every stored point with distance < r. Points up to the tolerance, in particular points exactly on the sphere, are returned too if each of their coordinates is within r of the centre.", "quantifier": "all trees from any history, all centres, all radii >= 0", "why_tests_cant": "depends on all tree shapes; completeness is a universally quantified claim over stored points", "anchors": ["src/Meshing/MeshingSmartTree.cpp: get_tree_points_in_sphere, kd_tree_get_seeds_in_sphere", "src/Meshing/MeshingVoronoiMesher.cpp: kd_tree_get_seeds_in_sphere"]}
{"id": "C09", "title": "In-sphere result depends only on the stored set", "statement": "Two trees holding the same points (e.g. before and after rebalancing) give the same in-sphere answer as a set for the same query.", "quantifier": "all pairs of trees with equal content, all queries", "why_tests_cant": "the tolerance shell r <= d < r*sqrt(1+2e-6) is hit with probability ~0 by random tests", "anchors": ["src/Meshing/MeshingSmartTree.cpp: kd_tree_get_seeds_in_sphere 2096-2129"]}
{"id": "C10", "title": "Point connectivity graph stays simple and symmetric", "statement": "After any sequence of connect calls between valid indices, the neighbour relation equals exactly the set of requested pairs (symmetric for undirected connect), neighbour lists contain no duplicates, reported counts equal the list lengths, and no write leaves the allocated list.", "quantifier": "all sequences of connect operations of any length on any number of points", "why_tests_cant": "lists grow by doubling after 8 entries; duplicates/asymmetry appear only for long histories", "anchors": ["src/Meshing/MeshingSmartTree.cpp: graph_connect_nodes, graph_connect, graph_connected, graph_get_neighbors"]}
{"id": "C11", "title": "Locality re-enumeration is a bijection", "statement": "Re-enumerating the points in tree order produces old->new and new->old index maps that are mutually inverse permutations and point data moves with its index.", "quantifier": "all trees of all sizes from any history", "why_tests_cant": "a permutation claim over every tree shape", "anchors": ["src/Meshing/MeshingSmartTree.cpp: re_enumerate_points_for_better_memory_access", "src/Meshing/MeshingVoronoiMesher.cpp: re_enumerate_points_for_better_memory_access, kd_tree_get_nodes_order"]}
{"id": "C12", "title": "Tokenising a line is lossless", "statement": "Splitting a line at a separator yields one more token than there are separators, no token contains the separator, and joining the tokens with the separator gives the line back.", "quantifier": "all character strings, all separators", "why_tests_cant": "empty fields, leading/trailing separators and all lengths are covered only by a proof", "anchors": ["src/Meshing/MeshingVoroCrust.cpp: get_tokens 827-848", "src/Meshing/MeshingVoronoiMesher.cpp: get_tokens 3132"]}
{"id": "C13", "title": "Configuration file: last assignment wins, defaults otherwise, malformed lines are undefined", "statement": "For a configuration file in which every keyword line has at least three tokens, each scalar option equals the value on its last assignment line or its documented default if there is none, list options collect all their values in file order, and unknown keywords change nothing; a keyword line with fewer than three tokens reads past the token list (undefined behaviour).", "quantifier": "all files (all sequences of lines)", "why_tests_cant": "interactions of repeated and interleaved keywords over arbitrarily long files", "anchors": ["src/Meshing/MeshingVoroCrust.cpp: execute 54-235"]}
{"id": "C14", "title": "Command line decides the method", "statement": "No arguments or -h anywhere prints usage and exits 0; otherwise -vc selects meshing with the token following its first occurrence as configuration file and fails with an exception if there is none; otherwise -subdivision_smooth selects the smoothing method; anything else exits with status 1.", "quantifier": "all argument vectors", "why_tests_cant": "argument vectors are unbounded; priority between flags in all positions", "anchors": ["src/Meshing/MeshingOptionParser.h", "src/Meshing/vc_mesh.cxx"]}
{"id": "C15", "title": "Merging several input surfaces keeps every triangle's geometry", "statement": "When several surface files are loaded, the merged point list is the concatenation of the files' points, and each face of each file refers in the merged mesh to exactly the coordinates it referred to in its own file, in order, with no face dropped.", "quantifier": "any number of input meshes with any number of points and faces whose indices are valid", "why_tests_cant": "index offset bugs depend on file count and sizes", "anchors": ["src/Meshing/MeshingVoroCrust.cpp: execute 175-211"]}
{"id": "C16", "title": "Seed file reading consumes every record", "statement": "Reading a seeds file whose data lines each have at least five fields yields one seed per data line in order, with coordinates, sizing and region from that line; a data line with fewer fields is undefined behaviour (out-of-range read), not a reported error.", "quantifier": "all files", "why_tests_cant": "files of any length and capacity doubling", "anchors": ["src/Meshing/MeshingVoroCrust.cpp: read_seeds_csv 771-825", "src/Meshing/MeshingVoronoiMesher.cpp: load_spheres_csv 2591-2635"]}
{"id": "C17", "title": "Welding nearby points is a valid quotient", "statement": "After welding with tolerance hmin the surviving points are pairwise at least hmin apart, every original point is represented by a survivor within hmin, and every surviving face refers to valid survivors representing its original corners; no face with a repeated corner remains.", "quantifier": "all point/face lists, all hmin > 0", "why_tests_cant": "greedy welding order and swap-with-last removal make every permutation of inputs a different path", "anchors": ["src/Meshing/MeshingPolyMesh.cpp: weld_nearby_points 362-501"]}
{"id": "C18", "title": "Removing isolated points preserves the mesh", "statement": "Removing points used by no face leaves exactly the used points in their original order and re-indexes faces so each face keeps its corner coordinates.", "quantifier": "all meshes with valid face indices", "why_tests_cant": "prefix renumbering must be right for every usage pattern", "anchors": ["src/Meshing/MeshingPolyMesh.cpp: remove_isolated_points 1743-1791"]}
{"id": "C19", "title": "Point-to-face incidence is the exact transpose of the face list", "statement": "The per-point face lists contain face f (once per corner occurrence) exactly when the point is a corner of f, in ascending face order, and both passes (count, fill) agree so no list overflows.", "quantifier": "all face lists with valid corner indices", "why_tests_cant": "two-pass count/fill agreement for every mesh", "anchors": ["src/Meshing/MeshingPolyMesh.cpp: build_point_faces 1159-1240", "src/Meshing/MeshingVoroCrustSampler.cpp: validate_surface_mesh 3606-3636"]}
{"id": "C20", "title": "Edge incidence queries agree with the face list", "statement": "The number of faces reported for an edge equals the number of faces having both endpoints as corners, the returned list names exactly those faces and its length equals the reported number.", "quantifier": "all triangle meshes without repeated corners, all point pairs", "why_tests_cant": "counting and filling are separate loops; mismatch overflows a heap buffer only for special faces", "anchors": ["src/Meshing/MeshingPolyMesh.cpp: get_num_edge_faces, get_edge_faces 1613-1722"]}
{"id": "C21", "title": "Watertightness test detects open boundaries", "statement": "The model is reported watertight if and only if no edge of any face is used by exactly one face.", "quantifier": "all triangle meshes", "why_tests_cant": "claim about every edge of every mesh", "anchors": ["src/Meshing/MeshingPolyMesh.cpp: water_tight_model 1344-1405"]}
{"id": "C22", "title": "Generated surface is declared correct only if watertight and manifold on surface spheres", "statement": "The surface validation accepts a generated surface mesh only when every edge is shared by at least two faces, and by exactly two when an endpoint is a surface sphere.", "quantifier": "all generated surface meshes and all numbers of surface/edge/corner spheres", "why_tests_cant": "acceptance is a universally quantified statement over edges", "anchors": ["src/Meshing/MeshingVoroCrustSampler.cpp: validate_surface_mesh 3581-3702"]}
{"id": "C23", "title": "Consistent orientation terminates and yields opposite traversal of shared edges", "statement": "Re-orienting the faces terminates and afterwards any two faces sharing a manifold edge and reached by propagation traverse that edge in opposite directions; faces are only reversed, never otherwise changed.", "quantifier": "all triangle meshes", "why_tests_cant": "propagation order over arbitrary adjacency", "anchors": ["src/Meshing/MeshingPolyMesh.cpp: impose_consistent_orientation 1277-1342"]}
{"id": "C24", "title": "Point coverage test is sound and complete", "statement": "If a point is reported covered there is a stored sphere whose (shrunken) ball contains it up to 1e-8; conversely, when sphere radii are L-Lipschitz with 0<=L<1, a point inside the shrunken ball of any stored sphere is reported covered.", "quantifier": "all sphere sets, all points, all L in [0,1), all coverage ratios in [0,1)", "why_tests_cant": "search radius formula must dominate every possible covering sphere", "anchors": ["src/Meshing/MeshingSpheresMethods.cpp: point_covered 50-96"]}
{"id": "C25", "title": "A face reported covered is entirely covered", "statement": "If a triangle (or edge) is reported covered then every point of it, not only its corners, lies in one sphere's shrunken ball; completeness for spheres containing all corners holds under the Lipschitz condition.", "quantifier": "all triangles/edges, all sphere sets", "why_tests_cant": "claim about uncountably many points of the triangle", "anchors": ["src/Meshing/MeshingSpheresMethods.cpp: edge_covered 99-140, face_covered 142-206"]}
{"id": "C26", "title": "Exhaustive Lipschitz pass computes the largest Lipschitz minorant", "statement": "After the exhaustive pass every pair of spheres satisfies r_i <= r_j + L*dist(i,j), no radius has grown, the radii are the largest with these properties, the loop terminates after at most two sweeps and the shrunk flag tells whether any radius changed.", "quantifier": "all finite sphere sets, all L >= 0", "why_tests_cant": "termination and optimality over all sphere configurations", "anchors": ["src/Meshing/MeshingSpheresMethods.cpp: impose_lipschitz_continuity_brute 209-248"]}
{"id": "C27", "title": "Neighbourhood Lipschitz pass enforces the Lipschitz condition globally", "statement": "After the neighbourhood-limited pass all pairs of spheres satisfy r_i <= r_j + L*dist(i,j) and no radius has grown.", "quantifier": "all finite sphere sets, all L in [0,1)", "why_tests_cant": "requires reasoning about pairs never compared by the code", "anchors": ["src/Meshing/MeshingSpheresMethods.cpp: impose_lipschitz_continuity 250-321"]}
{"id": "C28", "title": "Overlapping-sphere query finds every overlap", "statement": "Under the Lipschitz condition the overlap query returns exactly the stored spheres s with dist(s, x) < r_s + r_x + 1e-10 (up to the stated tolerance on the completeness side), with no duplicates.", "quantifier": "all sphere sets that are L-Lipschitz with 0<=L<1, all query spheres", "why_tests_cant": "missed overlaps lead to wrong seeds only in rare layouts", "anchors": ["src/Meshing/MeshingSpheresMethods.cpp: get_overlapping_spheres 323-373"]}
{"id": "C29", "title": "Sliver resolution only shrinks a movable sphere outside the triplet", "statement": "When sliver resolution reports a sphere it is not fixed and not one of the triple that produced it, its new radius is strictly smaller than its old one and not negative, it is the choice with the least shrink among all possible choices, and when none is possible it reports the out-of-range index.", "quantifier": "all sphere lists and fixed flags", "why_tests_cant": "combinatorial choice over all triples", "anchors": ["src/Meshing/MeshingSpheresMethods.cpp: resolve_sliver 375-433"]}
{"id": "C30", "title": "Power vertex has equal power", "statement": "For two spheres with distinct centres the returned point lies on the line of centres and has equal power distance to both spheres.", "quantifier": "all pairs of spheres with distinct centres, all dimensions", "why_tests_cant": "identity over the reals", "anchors": ["src/Meshing/MeshingGeometricalMethods.cpp: get_power_vertex 98-114", "src/Meshing/MeshingSpheresMethods.cpp: get_power_vertex 436"]}
{"id": "C31", "title": "Sampling stops only when the whole surface patch is covered", "statement": "When the active pool becomes empty during refinement, every point of every face of the patch lies inside a sphere (corner, edge, or shrunken surface ball).", "quantifier": "all meshes, all sphere sets growing during the loop, all refinement depths, all thread counts", "why_tests_cant": "statement about every point of the surface and unbounded refinement depth", "anchors": ["src/Meshing/MeshingVoroCrustSampler.cpp: refine_active_pool 2757-2889, refine_active_face 2997-3090, refine_active_pool_edges 2385-2431"]}
{"id": "C32", "title": "Parallel pool refinement equals sequential refinement", "statement": "The refined pool is the same list in the same order for every number of threads.", "quantifier": "all pool sizes, all thread counts >= 1", "why_tests_cant": "schedules and thread counts are unbounded", "anchors": ["src/Meshing/MeshingVoroCrustSampler.cpp: refine_active_pool 2770-2854"]}
{"id": "C33", "title": "Sub-triangle codes decode to the sub-triangle they were created for", "statement": "Decoding the stored bit path of an active sub-triangle (or sub-edge) returns exactly the corners the refinement step computed for that child, at every depth.", "quantifier": "all triangles, all refinement depths, all paths", "why_tests_cant": "unbounded depth", "anchors": ["src/Meshing/MeshingVoroCrustSampler.cpp: get_active_face_corners 2928-2995, refine_active_face, get_active_edge_corners 2470"]}
{"id": "C34", "title": "Face patches partition the surface", "statement": "The patch index ranges used for sampling are pairwise disjoint and together contain every face exactly once.", "quantifier": "all face counts, all patch counts >= 1", "why_tests_cant": "integer division remainder handling for all sizes", "anchors": ["src/Meshing/MeshingVoroCrustSampler.cpp: initiate_active_pool 2581-2623, generate_surface_spheres 1427"]}
{"id": "C35", "title": "Cumulative distribution lookup selects the right cell", "statement": "For a nondecreasing cumulative table the binary search returns an index inside the table, whose interval contains the drawn number.", "quantifier": "all nonempty monotone tables, all draws u in [0, last)", "why_tests_cant": "boundary hits and equal entries", "anchors": ["src/Meshing/MeshingRandomSampler.cpp: sample_uniformly_from_discrete_cdf", "src/Meshing/MeshingVoroCrustSampler.cpp: sample_active_faces_uniformly 2892-2926, 198-215"]}
{"id": "C36", "title": "Uniform random numbers stay in [0,1)", "statement": "Every number produced by the generator lies in [0,1) and is a multiple of 2^-53, forever, from any initial state the seeding can produce.", "quantifier": "all seeds, all numbers of draws", "why_tests_cant": "period is astronomically large", "anchors": ["src/Meshing/MeshingRandomSampler.cpp: initiate_random_number_generator, generate_uniform_random_number"]}
{"id": "C37", "title": "Simplex and box samples lie in the simplex and box", "statement": "A point sampled from a simplex is a convex combination of its corners, and a point sampled from a box lies in the box.", "quantifier": "all corner sets, all draws in [0,1)", "why_tests_cant": "claim for all draws and dimensions", "anchors": ["src/Meshing/MeshingRandomSampler.cpp: sample_uniformly_from_simplex, sample_uniformly_from_box"]}
{"id": "C38", "title": "Corner spheres are disjoint, bounded and Lipschitz", "statement": "After corner sphere generation the corner spheres have pairwise disjoint interiors, radius at most the user maximum, pairwise centre distance at least the feature tolerance and satisfy the Lipschitz condition.", "quantifier": "all corner sets, tolerances, size limits", "why_tests_cant": "all pairs in all configurations", "anchors": ["src/Meshing/MeshingVoroCrustSampler.cpp: generate_corner_spheres 1076-1171"]}
{"id": "C39", "title": "Seed pairs lie on their three spheres and mirror each other", "statement": "The two seeds made from three overlapping spheres lie on the boundary of all three spheres, are mirror images in the plane of centres, and stored partner indices always refer to existing seeds.", "quantifier": "all sphere triples with intersecting boundaries, all histories of seed insertion incl. de-duplication", "why_tests_cant": "identity over reals and index invariant over all histories", "anchors": ["src/Meshing/MeshingVoroCrustSampler.cpp: generate_surface_seeds 3112-3577, color_surface_seeds 1696-1719"]}
{"id": "C40", "title": "Region ids are exactly the connected components of the seed graph", "statement": "After colouring two seeds have the same region exactly when they are connected, colouring terminates, the exterior component is region 0 and the remaining regions are numbered 1..k without gaps with k the reported number of subregions.", "quantifier": "all seed graphs of all sizes", "why_tests_cant": "flood fill over arbitrary graphs", "anchors": ["src/Meshing/MeshingVoroCrustSampler.cpp: color_surface_seeds 2222-2314"]}
{"id": "C41", "title": "Region merging after meshing respects connectivity transitively", "statement": "When neighbouring seeds of different regions are found to be connected, all regions linked by a chain of such contacts receive the same id, unlinked ones stay distinct, and region 0 keeps id 0.", "quantifier": "all sequences of contacts between regions", "why_tests_cant": "order-dependent union bookkeeping", "anchors": ["src/Meshing/MeshingVoroCrust.cpp: generate_explicit_mesh 654-690"]}
{"id": "C42", "title": "Projection onto a segment is the nearest point", "statement": "The segment projection returns a point of the segment with minimal distance to the query and reports that distance, for any non-degenerate segment.", "quantifier": "all points and all segments with distinct ends", "why_tests_cant": "real-valued optimality", "anchors": ["src/Meshing/MeshingGeometricalMethods.cpp: project_to_3d_line_segment 420-444"]}
{"id": "C43", "title": "Projection onto a triangle returns a point of the triangle", "statement": "The triangle projection returns the point of the triangle nearest to the query and its distance.", "quantifier": "all points and all triangles", "why_tests_cant": "real-valued optimality including degenerate triangles", "anchors": ["src/Meshing/MeshingGeometricalMethods.cpp: project_to_3d_triangle 349-418"]}
{"id": "C44", "title": "Orthogonal component is orthogonal and unit", "statement": "When the normal component computation succeeds the result is a unit vector orthogonal to every basis vector of an orthonormal basis.", "quantifier": "all dimensions, all orthonormal bases, all vectors", "why_tests_cant": "real-valued identity", "anchors": ["src/Meshing/MeshingGeometricalMethods.cpp: get_normal_component 229-260", "src/Meshing/MeshingSpheresMethods.cpp: get_normal_component 569"]}
{"id": "C45", "title": "Sparse vectors behave like finite maps", "statement": "After any sequence of set operations, get returns the last value written to an index whose magnitude is at least 1e-12 and zero otherwise, indices stay strictly increasing, and no write leaves the allocation.", "quantifier": "all histories of set/get on any indices", "why_tests_cant": "binary search insert/delete/double over unbounded histories", "anchors": ["src/Meshing/MeshingLinearSolver.cpp: set_sparse_vector_entry 654-727, get_sparse_vector_entry, find_entry_position_binary"]}
{"id": "C46", "title": "Sparse dot product equals the dense one", "statement": "The dot product of two sorted sparse vectors (restricted to an index bound) equals the sum over all indices of the products of their entries.", "quantifier": "all pairs of well-formed sparse vectors", "why_tests_cant": "merge loop over arbitrary index patterns", "anchors": ["src/Meshing/MeshingLinearSolver.cpp: get_dot_product 759-812"]}
{"id": "C47", "title": "Cholesky solver solves the system", "statement": "When the triangular factor has nonzero diagonal, the solver returns x with L L^T x = b; with zero unknowns the code indexes out of range.", "quantifier": "all sizes, all factors, all right-hand sides", "why_tests_cant": "exact algebraic identity for all sizes", "anchors": ["src/Meshing/MeshingLinearSolver.cpp: Cholesky_Solver 622-651, Cholesky_factorization 214-276"]}
{"id": "C48", "title": "Parallel interior seeding counts every accepted seed", "statement": "With any number of threads the number of accepted interior seeds used for allocation equals the number of seeds written.", "quantifier": "all schedules of all threads", "why_tests_cant": "lost updates depend on scheduling", "anchors": ["src/Meshing/MeshingVoronoiMesher.cpp: impose_interior_seeds 580-796"]}
{"id": "C49", "title": "Active front seeds never conflict", "statement": "In each round the seeds chosen as active front are pairwise at least the exclusion distance apart, so their parallel darts cannot conflict.", "quantifier": "all fronts of all sizes", "why_tests_cant": "pairwise claim over all fronts; off-by-one visible only for neighbouring entries", "anchors": ["src/Meshing/MeshingVoronoiMesher.cpp: generate_interior_seeds 1020-1060"]}
{"id": "C50", "title": "Interior seeds keep the invariants of the front", "statement": "New interior seeds inherit a nonzero region, have size at most the user maximum, lie outside all surface, edge and corner spheres, and are appended after the existing seeds, which keep their position and region and are never enlarged. No size is smaller than the maximum radius, the values of the sizing function and the Lipschitz condition at the given seeds require.", "quantifier": "all rounds, all dart outcomes", "why_tests_cant": "unbounded rounds", "anchors": ["src/Meshing/MeshingVoronoiMesher.cpp: generate_interior_seeds 839-1618"]}
{"id": "C51", "title": "Voronoi cell search radius is sufficient", "statement": "When the cell construction stops, no seed outside the examined ball can cut the cell: the cell clipped by the examined seeds equals the Voronoi cell with respect to all seeds (up to the stated 1e-10).", "quantifier": "all seed sets, all cells", "why_tests_cant": "geometric claim over all seeds not examined", "anchors": ["src/Meshing/MeshingVoronoiMesher.cpp: get_3d_Voronoi_cell 1951-2107"]}
{"id": "C52", "title": "Voronoi cell construction always terminates", "statement": "Cell construction terminates for every seed.", "quantifier": "all seed sets with all sizing values", "why_tests_cant": "nontermination cannot be observed by a finite test", "anchors": ["src/Meshing/MeshingVoronoiMesher.cpp: get_3d_Voronoi_cell 1951-2107"]}
{"id": "C53", "title": "Vertex welding across cells terminates and numbers vertices without gaps", "statement": "Resolving every cell corner to its representative terminates, representatives are fixed points, and vertex numbers are exactly 0..n-1 with every corner resolving to a numbered vertex.", "quantifier": "all seed sets and corner lists", "why_tests_cant": "pointer chasing on arbitrary data could cycle", "anchors": ["src/Meshing/MeshingVoronoiMesher.cpp: generate_3d_voronoi_mesh 1660-1790"]}
{"id": "C54", "title": "Explicit mesh faces are well formed and listed once", "statement": "Every face stored has at least three distinct valid vertices, its owner is a non-ghost cell, each neighbouring pair of cells contributes at most one face, and the counting and filling passes agree.", "quantifier": "all cell structures", "why_tests_cant": "count/fill agreement for all inputs", "anchors": ["src/Meshing/MeshingVoronoiMesher.cpp: generate_3d_voronoi_mesh 1790-1949"]}
{"id": "C55", "title": "VCG output references only listed cells", "statement": "The written cell list is numbered 1..n consecutively over non-ghost seeds and every connection line refers to listed cells; with no non-ghost cell the writer divides by zero.", "quantifier": "all meshes", "why_tests_cant": "for all ghost/non-ghost patterns", "anchors": ["src/Meshing/MeshingVoronoiMesher.cpp: save_vcg_file_pflotran 2426-2558"]}
{"id": "C56", "title": "Cell-to-face lists are the exact transpose of face-to-cell", "statement": "The per-cell face lists contain each face exactly for the non-ghost cells adjacent to it, and counting and filling agree.", "quantifier": "all face lists", "why_tests_cant": "two-pass agreement", "anchors": ["src/Meshing/MeshingVoroCrust.cpp: generate_explicit_mesh 698-733"]}
{"id": "C57", "title": "Invalidated seeds are removed without disturbing the rest", "statement": "Removing invalidated interior seeds keeps exactly the valid seeds in their original order with their own size and region.", "quantifier": "all validity patterns", "why_tests_cant": "compaction over all patterns", "anchors": ["src/Meshing/MeshingVoroCrust.cpp: generate_interior_seeds 519-538"]}
{"id": "C58", "title": "Monitoring points are distinct interior seeds", "statement": "The generated monitoring points are min(100, number of interior seeds) distinct interior seeds, for every random outcome.", "quantifier": "all seed sets, all random draws", "why_tests_cant": "all shuffles", "anchors": ["src/Meshing/MeshingVoroCrust.cpp: generate_interior_seeds 576-612"]}
{"id": "C59", "title": "Parallel Lipschitz neighbour search is schedule independent", "statement": "The neighbour lists used by the mesher's Lipschitz pass are the same for every thread schedule.", "quantifier": "all schedules", "why_tests_cant": "data race on a shared query buffer", "anchors": ["src/Meshing/MeshingVoronoiMesher.cpp: impose_lipschitz_continuity 3073-3130"]}
{"id": "C60", "title": "Degenerate faces are removed and all other faces are processed", "statement": "The face preprocessing loop removes exactly the degenerate faces and computes data for every remaining face.", "quantifier": "all face lists with arbitrary degenerate positions", "why_tests_cant": "the failing position (just before the last face) is rare", "anchors": ["src/Meshing/MeshingVoroCrustSampler.cpp: 115-174, 569-623"]}
{"id": "C61", "title": "Sharp edges of a clean model are each listed exactly once", "statement": "Feature detection lists each sharp edge exactly once with its endpoints in ascending order.", "quantifier": "all triangle meshes", "why_tests_cant": "depends on face orientation patterns and edge valence", "anchors": ["src/Meshing/MeshingVoroCrustSampler.cpp: detect_features_generate_point_clouds_clean 264-303"]}
{"id": "C62", "title": "Feature tree buffers are large enough", "statement": "Copying the corner spheres and sizing points into their search arrays stays inside the allocated arrays.", "quantifier": "all counts of surface, edge and corner spheres", "why_tests_cant": "overflow only when corner count exceeds surface count", "anchors": ["src/Meshing/MeshingVoronoiMesher.cpp: 142-165, 540-563, 929-952"]}
{"id": "C63", "title": "Polynomial basis enumeration and evaluation", "statement": "The basis evaluator computes Chebyshev polynomials by index, the number of basis functions equals the number of non-constant multi-indices admitted, and each basis index below that number is evaluated with its own multi-index.", "quantifier": "all dimensions >= 1, all orders, all points", "why_tests_cant": "all dimensions and orders", "anchors": ["src/Meshing/MeshingVoroSpokes.cpp: evaluate_basis, evaluate_basis_chebyshev, get_num_basis 1230-1328"]}
{"id": "C64", "title": "Exodus file handle protocol", "statement": "At most one file is open per writer, closing without an open file is an error, and destroying the writer closes an open file exactly once.", "quantifier": "all sequences of open/close operations", "why_tests_cant": "all histories", "anchors": ["src/Meshing/MeshingExodusIO.cpp"]}
{"id": "C65", "title": "Surface files are read completely and in order", "statement": "An OBJ file whose vertex lines have three coordinates and whose face lines have three valid corner references yields exactly the points and faces of those lines, in order; a malformed vertex or face line is undefined behaviour, never a reported error.", "quantifier": "all files (all character sequences)", "why_tests_cant": "the two passes (count, fill) must agree for every file", "anchors": ["src/Meshing/MeshingPolyMesh.cpp: read_input_obj_file 190-334"]}
{"id": "C66", "title": "Stored face normals match the stored corner order", "statement": "After an input mesh has been processed, the stored normal of every face is the normal of its stored corner order.", "quantifier": "all triangle meshes, all point positions", "why_tests_cant": "depends on which faces the orientation pass reverses", "anchors": ["src/Meshing/MeshingPolyMesh.cpp: process_model 1053-1112, build_face_normals 1237-1255"]}
{"id": "C67", "title": "Global orientation adjustment is all-or-nothing", "statement": "Adjusting the CAD orientation picks a point nearest to the far bounding-box corner, reverses either every face with its normal or none, keeps a consistent orientation consistent, and leaves the normal of the picked face not pointing away from the far corner.", "quantifier": "all triangle meshes without isolated points", "why_tests_cant": "claim about every face and every geometry", "anchors": ["src/Meshing/MeshingPolyMesh.cpp: adjust_cad_orientation 1821-1863"]}
{"id": "C68", "title": "Sampled directions have unit length", "statement": "A direction sampled from the unit sphere has Euclidean length one.", "quantifier": "all dimensions >= 2, all draws strictly between 0 and 1", "why_tests_cant": "claim for all draws, and the rare draw 0 makes the direction NaN", "anchors": ["src/Meshing/MeshingRandomSampler.cpp: sample_uniformly_from_unit_sphere 176-198"]}
{"id": "C69", "title": "Sampled points lie on the face or edge they are recorded for", "statement": "A point drawn from the active pool is a point of the face (or sharp edge) whose index is returned with it.", "quantifier": "all surfaces, all refinement depths, all tables, all draws in [0,1)", "why_tests_cant": "the sub-triangle is found through a bit path of unbounded length and a table look-up", "anchors": ["src/Meshing/MeshingVoroCrustSampler.cpp: sample_active_faces_uniformly 2892-2926, sample_active_edges_uniformly 2433-2468"]}
{"id": "C70", "title": "Cholesky factorisation reproduces the matrix", "statement": "For any symmetric matrix with allocated rows the in-place factorisation stays inside its rows; when it returns true the result is stored in both triangles, has a diagonal of at least 1e-5 and L L^T equals the input up to the entries dropped as negligible; when the input is L L^T with entries above the tolerances it returns true and finds L.", "quantifier": "all sizes, all sparsity patterns, all entries", "why_tests_cant": "in-place algebraic identity with fill-in for all sizes and patterns", "anchors": ["src/Meshing/MeshingLinearSolver.cpp: Cholesky_factorization 214-276"]}
{"id": "C71", "title": "Power vertex of several spheres", "statement": "For spheres whose centres are affinely independent by a margin, the power vertex routine either reports failure or returns the unique point of the affine hull of the centres with the same power to every sphere, whatever random directions it draws; directions that make it succeed always exist.", "quantifier": "all dimensions, all numbers of spheres up to dimension + 1, all centres and radii, all random directions", "why_tests_cant": "result is independent of the random directions and the order in which spheres are hit, for every dimension", "anchors": ["src/Meshing/MeshingGeometricalMethods.cpp: get_power_vertex 116-227"]}
{"id": "C72", "title": "Imposed seeds are placed where they are allowed", "statement": "When user supplied monitoring spheres are turned into seeds, every accepted one has the region of the closest existing seed, which is not the outside, and lies outside all surface, edge and corner spheres; every rejected one has an outside closest seed or lies in a sphere; existing seeds are unchanged and come first.", "quantifier": "all seed sets, feature spheres and imposed points, all thread schedules", "why_tests_cant": "Depends on a spatial search with a radius derived from the Lipschitz constant: a missed sphere needs a particular arrangement of sphere sizes.", "anchors": ["src/Meshing/MeshingVoronoiMesher.cpp: impose_interior_seeds 449-836"]}
{"id": "C73", "title": "Written monitoring points are seeds of the mesh", "statement": "Every monitoring point written to monitoring_points_closest_seeds.csv that was moved to its closest seed is the position of a seed of the resulting mesh.", "quantifier": "all seed sets, all imposed points", "why_tests_cant": "Needs one monitoring sphere to swallow the seed to which another monitoring point was moved.", "anchors": ["src/Meshing/MeshingVoroCrust.cpp: 444-550"]}
{"id": "C74", "title": "The mesher's Lipschitz pass ends with Lipschitz sizes", "statement": "The pass terminates, changes only sizes, never enlarges one or lowers it below what the condition demands, and afterwards any two seeds satisfy size(i) <= size(j) + L * distance + 1e-10.", "quantifier": "all seed sets, all sizes >= 0, all L >= 0", "why_tests_cant": "The comparison radius depends on the sizes; violations occur only for pairs outside it.", "anchors": ["src/Meshing/MeshingVoronoiMesher.cpp: impose_lipschitz_continuity 3073-3130, 865-872"]}
{"id": "C75", "title": "Accepted darts keep out of the spheres around", "statement": "In each round every accepted dart lies between one and two radii from its front seed, outside every surface, edge and corner sphere, and outside every seed or interior sphere that obeys the Lipschitz condition with its front seed; the limited neighbour search misses none of them.", "quantifier": "all states of the front, all random numbers", "why_tests_cant": "the neighbour search radius is a geometric argument over all sphere sets", "anchors": ["src/Meshing/MeshingVoronoiMesher.cpp: generate_interior_seeds 1089-1390"]}
{"id": "C76", "title": "Cutting the cell polytope keeps its corner graph intact", "statement": "Cutting the polytope of a Voronoi cell by the bisector with a seed always ends, never leaves its arrays, and leaves a graph in which every corner has exactly three neighbours other than itself and neighbourhood is mutual. Only corners beyond the bisector go, and with each corner that goes its neighbours beyond the bisector; all other corners stay where they were, and every new corner lies on an edge that was cut and not beyond the bisector.", "quantifier": "all polytopes reachable from the initial box, all planes", "why_tests_cant": "recursion and in-place rewiring of a graph: for all graphs and all planes", "anchors": ["src/Meshing/MeshingVoronoiMesher.cpp: construct_initial_polytope, trim_vertex 2109-2291"]}
{"id": "C77", "title": "Returned Voronoi cells are closed trivalent graphs with valid seeds and a consistent owner", "statement": "For every corner of a returned cell the three neighbours are other corners of the same cell and name it back equally often, the three seeds are valid and lie at other places than the seed of the cell, and the owner of a corner of a cell inside is the first seed inside among those near enough that are equally far from the corner.", "quantifier": "all seed sets, all cells the construction returns", "why_tests_cant": "the corner graph is produced by a recursive cut over arbitrary seed positions", "anchors": ["src/Meshing/MeshingVoronoiMesher.cpp: get_3d_Voronoi_cell 1951-2107", "src/Meshing/MeshingVoronoiMesher.cpp: trim_vertex 2137-2290"]}
{"id": "C78", "title": "Sharp corners of a clean model", "statement": "Given any list of sharp edges, with repetitions or not, the corner detection of a clean model ends without undefined behaviour and returns, each once and in ascending order, exactly the points where a single sharp edge ends, where three or more different sharp edges meet, or where two different sharp edges enclose an angle sharper than the threshold.", "quantifier": "all numbers of points, all edge lists with ascending end points in range, all symmetric angle tests", "why_tests_cant": "the result depends on repetition patterns of the edge list and on how many different edges meet at a point", "anchors": ["src/Meshing/MeshingVoroCrustSampler.cpp: detect_features_generate_point_clouds_clean 305-409"]}
{"id": "C79", "title": "Coordinates given to the Exodus writer", "statement": "The functions of the Exodus writer class that take node coordinates hand the library an array holding a number for every node, whatever the number of nodes.", "quantifier": "all numbers of nodes, all list lengths", "why_tests_cant": "reading past the end of an array on the stack shows no error in a test", "anchors": ["src/Meshing/MeshingExodusIO.cpp: setCoordinatesOnAxis 155-187, setCoordinates 190-225"]}
{"id": "C80", "title": "Exodus connectivity describes the mesh", "statement": "For every mesh with numbers below the largest int, the count and entry arrays that save_exodus_file hands to the library are filled within their allocated sizes, and splitting the entries by the counts gives the faces, and for the cells inside the domain, in order, their faces, numbered from one.", "quantifier": "all meshes: numbers of faces, cells, corners, all patterns of inside and outside cells", "why_tests_cant": "round trip for all meshes", "anchors": ["src/Meshing/MeshingVoronoiMesher.cpp: save_exodus_file 3155-3211"]}
{"id": "C81", "title": "Edge spheres cover the sharp edges", "statement": "Given at least one corner sphere and some edge point outside the corner spheres, generate_edge_spheres is never undefined, and when it returns, with the final radii: every point of every sharp edge lies in an edge sphere scaled by sqrt(1 - ratio^2) or in a corner sphere (up to 1e-8); every sphere is centred on the sharp edge recorded in its attributes and obeys the limits R_MAX, prescribed size and 0.4 times the clearances there; spheres within two radii obey the Lipschitz condition, and all do for L >= 1/2; under the Lipschitz condition a sphere overlapping one of another edge has radius below (1 + 1e-8) times 0.4 the distance to that edge, unless that distance is within the tolerance or along the edge. R_MIN is not a lower bound of the radii.", "quantifier": "all edge sets, corner spheres, query answers, random numbers and numbers of iterations", "why_tests_cant": "the loop re-samples after every shrink: coverage with the final radii is a property of all runs, random numbers and nestings", "anchors": ["src/Meshing/MeshingVoroCrustSampler.cpp: generate_edge_spheres 1174-1376", "src/Meshing/MeshingSpheresMethods.cpp: point_covered, edge_covered, get_overlapping_spheres", "src/Meshing/MeshingVoroCrust.cpp: R_MIN 93, 138"]}
{"id": "C82", "title": "Surface spheres cover the surface", "statement": "When generate_surface_spheres returns, with the final radii: every point of every face lies in a surface sphere scaled by sqrt(1 - ratio^2), in an edge sphere or in a corner sphere (up to 1e-8); every surface sphere is centred on the face recorded for it, outside the edge and corner spheres, and obeys the limits R_MAX, prescribed size and 0.4 times the clearances there (or _r_min_surface if larger); spheres within two radii obey the Lipschitz condition, and all do for L >= 1/2; every interior seed names three different spheres, every pair of these with a surface sphere is shared by exactly two such triples, and if the final spheres are in general position the stored seeds are the intersection points of the meeting triples, each in the tree its side of the surface demands. With one thread the sampling is never undefined.", "quantifier": "all surfaces with valid faces, edge and corner spheres, query answers, random streams, numbers of iterations", "why_tests_cant": "the loop re-samples after every shrink of a radius: coverage and watertightness with the final radii are properties of all runs, random numbers and nestings", "anchors": ["src/Meshing/MeshingVoroCrustSampler.cpp: generate_surface_spheres 1380-1649, sample_active_pool 2606-2740", "src/Meshing/MeshingSpheresMethods.cpp: point_covered, face_covered, get_overlapping_spheres"]}
{"id": "C83", "title": "Sizes in narrow regions", "statement": "After the validation of sizes in narrow regions, a surface sphere that overlaps a sphere of another face, with that face straight across from its centre at a distance d with 0.4 d at least R_MIN, has a radius of at most 0.4 d (or _r_min_surface), up to a factor 1 + 1e-8.", "quantifier": "all surfaces, sphere trees and recorded faces", "why_tests_cant": "the pass runs and reports no error on every input; only a statement about all configurations shows whether it can ever shrink a sphere", "anchors": ["src/Meshing/MeshingVoroCrustSampler.cpp: generate_surface_spheres 1517-1569"]}
{"id": "C84", "title": "Which seeds the colouring joins", "statement": "On a model without sharp features, where the triangles of seed pairs around every surface sphere close to one fan, the marking of seeds around the spheres terminates without undefined behaviour; it connects two seeds at a sphere exactly if a chain of neighbouring triangles leads from one to the other along one side of the surface, never the two seeds of a pair there; and two seeds get the same region exactly if they are joined along one side of the surface in this way. A sphere where two fans meet (a pinched surface) is not covered: there the two seeds of some pair get one region, so that inside and outside are merged.", "quantifier": "all closed surfaces of seed triangles without sharp features, all numberings and positions of the seeds, all capacities", "why_tests_cant": "whether the two sides of the surface are ever mixed up depends on the orientation of every triangle met along a walk; a test on one model shows one set of orientations", "anchors": ["src/Meshing/MeshingVoroCrustSampler.cpp: color_surface_seeds 1652-2220", "src/Meshing/MeshingGeometricalMethods.cpp: get_point_angle 50-65"]}
{"id": "C85", "title": "Sharp edges separate the seeds sector by sector", "statement": "On a model with sharp edges, the seeds around an edge sphere are connected exactly if they lie in the same sector between two sheets of the surface that follow each other around the edge; so the two seeds of a pair, on different sides of a triangle, are never connected there, and two seeds get the same region exactly if a chain leads from one to the other that stays on one side of the surface around surface spheres and in one sector around edge spheres.", "quantifier": "all closed surfaces of seed triangles with any number of sheets at each sharp edge, all positions, numberings and capacities", "why_tests_cant": "sheets are followed by matching sphere numbers, sorted by angle and marked with cyclic numbers; a wrong sector merges two materials only for particular numberings and numbers of sheets", "anchors": ["src/Meshing/MeshingVoroCrustSampler.cpp: color_surface_seeds 1900-2220", "src/Meshing/MeshingGeometricalMethods.cpp: get_point_angle 50-65"]}
{"id": "C86", "title": "Angles of points", "statement": "get_point_angle returns the polar angle of a point in [0, 2 pi), so that points sorted by it are in the order of their polar angles.", "quantifier": "all points of the plane, real arithmetic", "why_tests_cant": "the tolerance around the axes concerns points no test samples", "anchors": ["src/Meshing/MeshingGeometricalMethods.cpp: get_point_angle 50-65", "src/Meshing/MeshingVoroCrustSampler.cpp: color_surface_seeds 2032-2047"]}
{"id": "C87", "title": "Seeds added on sharp edges", "statement": "When the mesher adds seeds along sharp edges, it keeps all seeds it was given (positions, regions, order; sizes do not grow) and appends, for each edge sphere and each of its two neighbours along the edge, at most one seed.  That seed lies on both spheres, i.e. on the circle in which they meet, has the radius of that circle as its size, lies outside all surface spheres (and all other protecting spheres), and has the region of the nearest seed, which is not the outside region.  Among the random candidates it is one furthest away from the seeds.  No seed is added only if three seeds already lie around the circle or no candidate will do.", "quantifier": "for all seeds with non-negative sizes, all surface, edge, corner and sizing spheres satisfying the Lipschitz condition, all Lipschitz constants in [0,1), all random draws", "why_tests_cant": "Needs the surface spheres of a model with sharp edges and depends on random candidates; the neighbour search and its behaviour when nothing is found depend on the geometry of the edges.", "anchors": ["src/Meshing/MeshingVoronoiMesher.cpp:55-447", "src/Meshing/MeshingVoronoiMesher.cpp:2719-2743", "src/Meshing/MeshingVoronoiMesher.cpp:2925-3010"]}
{"id": "C88", "title": "Spokes end on the cell boundary", "statement": "Trimming a spoke that starts in the Voronoi cell of a seed gives exactly the point where the spoke leaves the cell: the end is equally far from the seed and from the neighbour reported, beyond it the neighbour is nearer, and up to it no other seed that is searched is nearer (seeds whose direction is within 1e-8 of being perpendicular to the spoke are disregarded, which bounds the error of the squared distance by 2e-8 times the length).  If no neighbour is reported the spoke stays in the cell.  The kd-tree search with pruning never misses a seed.", "quantifier": "for all trees obtained by insertions and rebuilds, all dimensions, all cell seeds (in the tree or not), all sets of marked and involved seeds, all spoke origins in the cell and directions of length at most one", "why_tests_cant": "The pruning rule must be right for every arrangement of seeds; a wrongly pruned subtree shows only for particular trees and directions.", "anchors": ["src/Meshing/MeshingSmartTree.cpp:1021-1089", "src/Meshing/MeshingSmartTree.cpp:3062-3146"]}
{"id": "C89", "title": "Neighbours found by spokes", "statement": "The neighbours reported for a query point are distinct seeds.  Level 0 is present exactly if the query point is at a seed (within 1e-10), and is a nearest seed.  The neighbours of level k+1 are exactly the seeds that end a spoke of layer k when the seeds of earlier levels are disregarded, each with the number of those spokes as its hits, and the spoke points reported are the ends of the spokes.  When a number of neighbours is wanted, the search, if it ends, gives that many distinct seeds.", "quantifier": "for all trees, all query points, all numbers of layers and spokes, all directions drawn, all wanted numbers of neighbours", "why_tests_cant": "Depends on random directions and on the arrangement of seeds; counts and levels must be consistent for every sequence of draws.", "anchors": ["src/Meshing/MeshingSmartTree.cpp:707-1018"]}
{"id": "C90", "title": "Point files: written, read back, and what they mean", "statement": "Points written with save_tree_csv and read with load_tree_csv are appended to the tree in their order, with their numbers as printed and a missing direction replaced by zeros.  If the first point has attributes and all points have equally many, the attributes come back as well; if the first point has none, attributes are lost; otherwise reading is undefined.  Any file is read without undefined behaviour exactly when every line after the header has the fields it needs, and then line i gives point i.  An empty line is undefined behaviour; sixteen digits do not identify a double.", "quantifier": "for all trees, dimensions, files, and all ways of printing and parsing numbers that agree with each other", "why_tests_cant": "A file format is a contract over all files; tests use a few well-formed ones and never see the lines that crash the reader.", "anchors": ["src/Meshing/MeshingSmartTree.cpp:118-159", "src/Meshing/MeshingSmartTree.cpp:213-293", "src/Meshing/MeshingVoroCrust.cpp:168-172"]}
{"id": "C91", "title": "Records of tree points", "statement": "Adding a point is defined exactly when the arrays given are long enough; the point is then the last one, the others stay as they are, and its numbers, direction and attributes are those given.  An attribute that was given is read back, also after another one is changed, and asking for an attribute beyond the count is answered with false.  Asking for the attribute just below the count reads one entry past the end of the array.", "quantifier": "for all trees, points, directions, attribute rows and indices", "why_tests_cant": "The one undefined index sits between the valid and the refused ones and normally returns whatever is in memory.", "anchors": ["src/Meshing/MeshingSmartTree.cpp:388-496", "src/Meshing/MeshingSmartTree.cpp:510-527"]}
{"id": "C92", "title": "Point clouds and the distances taken from them", "statement": "For a clean model with at least one face (sharp edge), the cloud of n points is always defined and has n points; point k lies on the face (edge) whose share of the total area (length) contains the k-th selecting random number, and it carries the normal (tangent) of that face (edge).  A distance taken from a cloud is the smallest one over all cloud points that are beyond the tolerance and are not close to the plane (line) through it, and DBL_MAX if there is none; from an empty cloud it is undefined.  The prescribed size at a point is the one stored with the nearest point of the sizing function, and DBL_MAX without one.", "quantifier": "for all meshes, numbers of points, random streams, balancing policies of the trees, thresholds, tolerances and query points", "why_tests_cant": "The distances decide all radii; a sample of queries cannot show that the pruned tree search never skips the nearest non-smooth point.", "anchors": ["src/Meshing/MeshingVoroCrustSampler.cpp:414-530", "src/Meshing/MeshingSmartTree.cpp:665-696", "src/Meshing/MeshingSmartTree.cpp:2496-2686", "src/Meshing/MeshingSmartTree.cpp:2794-2887"]}
{"id": "C93", "title": "The sampling stages of execute_vc, one after the other", "statement": "For a clean input (triangles in range with three different corners, R_MIN = 0), detection and corner spheres are defined.  Edge spheres are defined if there are no sharp edges, or if a point of a sharp edge is outside the corner spheres, which holds if two sharp corners are joined by a chain of sharp edges.  Whenever the sampling returns, every sharp corner is the centre of a corner sphere, the sharp edges are covered by corner and edge spheres, all faces by corner, edge and surface spheres, and the radii obey R_MAX, the sizing function, the distances to the clouds and the Lipschitz constant.  With sharp edges but no sharp corner the sampling is undefined.", "quantifier": "for all clean inputs, numbers of threads, random streams and lengths of the run", "why_tests_cant": "Each stage relies on what the one before left behind; tests of single stages supply hand-made states, and closed loops of sharp edges without a corner are a rare shape of model.", "anchors": ["src/Meshing/MeshingVoroCrust.cpp:238-306", "src/Meshing/MeshingVoroCrustSampler.cpp:247-547", "src/Meshing/MeshingVoroCrustSampler.cpp:1077-1390", "src/Meshing/MeshingVoroCrustSampler.cpp:2682-2702"]}
{"id": "C94", "title": "A minimum radius other than zero", "statement": "With R_MIN other than zero the sampling never returns a result: the normals of the faces are only kept by the detection for R_MIN = 0, and the first dart on the surface reads them through a null pointer.  The destructor of the sampler is defined after the detection for R_MIN = 0 and undefined otherwise.", "quantifier": "for all inputs with a minimum radius, whatever the other detection finds, all random streams and lengths of the run", "why_tests_cant": "A test of this option ends in undefined behaviour, which may look like success on one machine; that no input at all can succeed is a statement about all runs.", "anchors": ["src/Meshing/MeshingVoroCrust.cpp:267-272", "src/Meshing/MeshingVoroCrustSampler.cpp:43-75", "src/Meshing/MeshingVoroCrustSampler.cpp:549-575", "src/Meshing/MeshingVoroCrustSampler.cpp:2335-2340", "src/Meshing/MeshingVoroCrustSampler.cpp:2682-2685"]}
{"id": "C95", "title": "The least-squares solver finds the least-squares solution", "statement": "LS_QR_Solver, called with at least as many equations as unknowns and at least one unknown, whose columns are each more than 1e-10 away from all linear combinations of the columns before, writes the unique vector x for which |Ax - b| is smallest. If from some column on a column is exactly a combination of the ones before, the entries from there on are zero and x is the unique minimiser among the vectors with this property; no entry is ever NaN. It is not the least-squares solution of the whole system in that case, and with fewer equations than unknowns the behaviour is undefined.", "quantifier": "all matrices and right sides over the reals, all sizes", "why_tests_cant": "The claim is about a minimum over all vectors, for all matrices of all sizes; a test compares a handful of systems, and the NaN path of dependent columns is not reached by well-conditioned ones.", "anchors": ["src/Meshing/MeshingLinearSolver.cpp:52-99", "src/Meshing/MeshingLinearSolver.cpp:101-213"]}
{"id": "C96", "title": "A Voronoi vertex has the same distance from its seeds", "statement": "get_Voronoi_vertex, called with one seed more than dimensions, answers yes and gives the only point that has the same distance from all the seeds, provided the coordinates of the differences to the first seed are independent (by more than 1e-10). With another number of seeds it answers no and leaves the point as it was. For flat sets of seeds it also answers yes, but the point need not have the same distance from the seeds.", "quantifier": "all dimensions, seeds and points", "why_tests_cant": "The claim is a geometric fact about all sets of seeds in all dimensions; tests fix a few tetrahedra and rarely degenerate ones.", "anchors": ["src/Meshing/MeshingSmartTree.cpp:1925-1953", "src/Meshing/MeshingLinearSolver.cpp:52-99"]}
{"id": "C97", "title": "Adding a row to a Cholesky factorisation", "statement": "Cholesky_factorization_add_row, called with a factor as the solver keeps it and a row with at least one entry, stays inside the allocated memory. If it returns true, the factor has one more row, the old part is unchanged, and L L^T has the new row as its last row, up to entries dropped as negligible; if the row belongs to a factor with entries above the tolerances, it returns true and finds it. Adding the rows of a matrix one after the other gives what Cholesky_factorization promises. A row without entries (null pointer) is undefined.", "quantifier": "all sizes, all sparsity patterns, all entries, all histories of rows", "why_tests_cant": "algebraic identity for all sizes and patterns, kept along histories of any length", "anchors": ["src/Meshing/MeshingLinearSolver.cpp: Cholesky_factorization_add_row 525-620"]}
{"id": "C98", "title": "From surface seeds to final seeds", "statement": "generate_interior_seeds runs without undefined behaviour when no points are imposed. When it ends, the surface seeds come first, in order, at their positions and with their regions, none grown unless a point is imposed there. All further seeds are outside every surface sphere and have the region of some surface seed, never the outside region; all but those added for sharp edges (at most two per edge sphere) are outside edge and corner spheres too. Generated monitoring points are up to 100 different further seeds. With imposed points, the seeds following the edge seeds are imposed points, and every seed after those is outside the spheres of the imposed points that are seeds.", "quantifier": "all feature spheres, surface seeds, imposed points, thread counts, random draws", "why_tests_cant": "unbounded rounds, all random draws, interaction of five stages", "anchors": ["src/Meshing/MeshingVoroCrust.cpp: generate_interior_seeds 307-617"]}
{"id": "C99", "title": "The surrogate of MeshingVoroSpokes is the weighted regression and reproduces what its basis spans", "statement": "build_vps_model, when its search for neighbours ends, takes the largest order, not above the desired one, for which there are at least twice as many neighbours as basis functions, uses different seeds away from the cell's own one, never divides by zero, and, if the basis functions are numerically independent at these seeds, gives the expansion around the seed with the smallest sum of weighted squared errors. So every affine function is reproduced exactly everywhere, and with monomials every polynomial up to the order of the cell, including the values at the seeds. evaluate_vps uses the cell of a nearest seed, and the version with an error estimate gives the same value and a non-negative estimate. With the Chebyshev basis (the only one the code can select) this does not extend to quadratic functions: from order 2 on even the value at a seed is not the one given there.", "quantifier": "all trees, seeds, orders, directions, function values and query points over the reals; all dimensions", "why_tests_cant": "The claim is about all functions in the span of the basis and the minimum over all expansions, for arbitrary trees and random directions; a test checks a few functions at a few points.", "anchors": ["src/Meshing/MeshingVoroSpokes.cpp:334-363", "src/Meshing/MeshingVoroSpokes.cpp:1330-1495", "src/Meshing/MeshingVoroSpokes.cpp:1524-1542"]}
{"id": "C100", "title": "The surface the program reads and writes is the surface of its input files, and its own surface files read back as the same surface", "statement": "If the vertex and face lines of the input files are well formed and refer to vertices of their file, the run starts from a surface whose points are input vertices at least 1e-8 apart and whose faces are triangles with corners in range; every input vertex is nearer than 2e-8 to one of these points, every input face is one of the faces corner by corner within 2e-8 unless two of its corners are nearer than 4e-8 to each other, and every face comes from an input face. A surface file written by the program (clean.obj, model_combined.obj, surface_mesh.obj) reads back as the same points, each coordinate as printed, and the same faces, in the same order; if the coordinates have at most sixteen digits, giving clean.obj or model_combined.obj as the only input yields the same surface and the same file. Not true for other coordinates: two points that were kept apart can be merged when the file is read.", "quantifier": "all files, surfaces, numbers of files, points and faces, printers and parsers of numbers, re-balancing policies", "why_tests_cant": "The order of points, the merging by distance and the printing interact only for particular coordinates; tests read a handful of files.", "anchors": ["src/Meshing/MeshingPolyMesh.cpp:190-361", "src/Meshing/MeshingVoroCrust.cpp:173-216"]}
{"id": "C101", "title": "Cutting a Voronoi cell with a plane removes exactly what is beyond the plane", "statement": "If a polytope has its corners, edges and faces consistent (each corner on its three walls, the corners and walls describe the same solid) and no corner is on the plane or up to 1e-10 beyond it, then cutting it from any corner beyond the plane always ends well defined; the result is again consistent, a point is in it exactly if it is in the old polytope and not beyond the plane, and every wall is an old wall or the plane.", "quantifier": "all polytopes whatever the number of corners and edges, all planes, all starting corners", "why_tests_cant": "The recursion over the corners and the relinking of the cut edges has unboundedly many shapes; a dropped or extra region is not visible in a sample of cells.", "anchors": ["src/Meshing/MeshingVoronoiMesher.cpp: trim_vertex 2162-2290", "src/Meshing/MeshingVoronoiMesher.cpp: construct_initial_polytope 2109-2160"]}
{"id": "C102", "title": "The explicit Voronoi mesh is the Voronoi mesh of the seeds", "statement": "For seeds in general position, generate_3d_voronoi_mesh ends and returns the Voronoi mesh of the seeds that have a region: the vertices are exactly the points where four seeds are nearest, at least one of them with a region, each listed once; every face has three or more different vertices, is spanned by them, is the set of common points of the Voronoi cells of its two seeds, lists all Voronoi vertices on it, and consecutive vertices are the ends of an edge of the cell; and every two cells with a common point, one of them of a seed with a region, have exactly one face.", "quantifier": "all finite lists of seeds with any sizes and regions, in any order, pairwise at least 2e-5 apart and in general position, whose cells with a region are bounded", "why_tests_cant": "A test compares a few meshes with expected counts; it cannot show for all seed sets that no face or vertex is missing, doubled, wrongly welded or listed in the wrong order.", "anchors": ["src/Meshing/MeshingVoronoiMesher.cpp:1620-1949", "src/Meshing/MeshingVoronoiMesher.cpp:1955-2122"]}
{"id": "C103", "title": "The volumes and areas of the VCG file are the true ones", "statement": "For seeds in general position, and for seeds with ties at the vertices such as lattices, the VCG file written from the generated mesh lists one cell for each seed with a region, and the volume of a cell is the volume of the set of points nearest to its seed; the volumes add up to the volume of the meshed region; and there is exactly one connection line for each pair of cells with a common face, whose area is the area of that face (the pyramid from the seed over the face has volume area times distance of the seeds over six) and whose normal is the unit vector from one seed to the other.", "quantifier": "all finite lists of seeds in general position or with gaps of 1e-10 at the vertices, pairwise at least 2e-5 apart, at least one with a region, whose cells with a region are bounded; any number of cells, faces and corners per face", "why_tests_cant": "A test can compare the volumes of a few meshes with known ones; that the fan formula equals the measure of every Voronoi cell, whatever its shape, needs a proof.", "anchors": ["src/Meshing/MeshingVoronoiMesher.cpp:2426-2558", "src/Meshing/MeshingVoronoiMesher.cpp:1620-1949", "src/Meshing/MeshingVoroCrust.cpp:698-733"]}
{"id": "C104", "title": "The surface triangles are faces of the Voronoi mesh", "statement": "Each seed pair of the surface sampling belongs to three spheres. The triangle of their centres is exactly the common face of the Voronoi cells of the two seeds among all seeds of the final mesh, as long as the other seeds are outside the three spheres; so the mesh has the sampled surface among its faces and no cell crosses it there. For the run of the program, whose interior seeds may be 1e-10 inside a sphere, the common face lies in the triangle, and every point of the triangle is as far from both seeds and farther from them than from any other seed by no more than that tolerance allows. On a closed smooth surface the stored seeds also satisfy what the region colouring needs, so regions are the sides of the surface.", "quantifier": "all sphere sets and stored seeds meeting the conclusions of the surface sampling, with no sphere within 1e-10 of a common point of three others without containing it; all seeds, all lists of further seeds outside the spheres; all points of space; any number of spheres, seeds and regions", "why_tests_cant": "A test can check that some mesh has a face near some triangle; that every triangle is exactly a cell face, for every sampling of every surface, is a statement about all points in space and all sets of spheres", "anchors": ["src/Meshing/MeshingVoroCrustSampler.cpp: generate_surface_seeds 3112-3577, merged seeds 1696-1719", "src/Meshing/MeshingVoronoiMesher.cpp: generate_interior_seeds 839-1619", "src/Meshing/MeshingVoroCrust.cpp: generate_interior_seeds 307-617"]}
{"id": "C105", "title": "The explicit Voronoi mesh of seeds in degenerate position is their Voronoi diagram", "statement": "generate_3d_voronoi_mesh also ends and returns the Voronoi diagram of the seeds with a region when more than four seeds are nearest to one point, as for lattices and for the surface seeds of VoroCrust, as long as no seed is farther than the nearest ones by a positive amount of less than 1e-10: the vertices are exactly the vertices of the Voronoi cells, and each place is listed once however many cells meet there; every face is the set of common points of two cells, is spanned by its vertices in edge order, and has three vertices not on a line; and every two cells whose common points are not all on a line have exactly one face.", "quantifier": "all finite lists of seeds with any sizes and regions, in any order, pairwise at least 2e-5 apart, with gaps of 1e-10 at the vertices, at most 102 nearest seeds at a point and bounded cells; in particular all seeds on an integer grid", "why_tests_cant": "The corner merging, the face extraction and the welding of corners each make choices that depend on the order of the seeds; a test with a lattice fixes one order and one set of ties.", "anchors": ["src/Meshing/MeshingVoronoiMesher.cpp: generate_3d_voronoi_mesh 1620-1949", "src/Meshing/MeshingVoronoiMesher.cpp: get_3d_Voronoi_cell 1951-2107", "src/Meshing/MeshingVoronoiMesher.cpp: trim_vertex 2159-2291"]}
{"id": "C106", "title": "The generated mesh has the sampled surface among its faces", "statement": "In the mesh returned by generate_3d_voronoi_mesh for the surface seeds and the interior seeds together, every surface triangle next to a cell with a region appears as a face, exactly once: the face lies between the two seeds of the triangle and has exactly three vertices, which are the centres of the three spheres of the triangle. This holds although many cells meet at every such vertex.", "quantifier": "all sphere sets and stored seeds meeting the conclusions of the surface sampling with no grazing spheres, all further seeds outside the spheres, all sizes and regions meeting the conditions of C105; any number of spheres, triangles and seeds", "why_tests_cant": "It joins what the sampling guarantees about seeds with what the mesher does at vertices shared by many cells, for every surface; a test shows one surface and rounding decides which triangles survive.", "anchors": ["src/Meshing/MeshingVoroCrustSampler.cpp: generate_surface_seeds 3112-3577", "src/Meshing/MeshingVoronoiMesher.cpp: generate_3d_voronoi_mesh 1620-1949", "src/Meshing/MeshingVoroCrust.cpp: generate_explicit_mesh 618-735"]}
{"id": "C107", "title": "A run from seeds to the mesh files", "statement": "generate_explicit_mesh, called with seeds, their sizes and regions and the number of surface seeds, ends without undefined behaviour; the mesh is the Voronoi diagram of the seeds; merging changes a region number only to a smaller one reached through touching cells of interior seeds, and no cell moves into or out of the domain; if a VCG file is wanted, its cells have the true centres, volumes and face areas of the Voronoi cells; if an Exodus file is wanted and its numbers fit into int, its nodes, faces and elements are the vertices, the faces and the cells with a region, in the order of the seeds. generate_mesh_from_seeds_file does the same for the seeds of a file and keeps their regions.", "quantifier": "all seeds, sizes and regions meeting the conditions of C105, any number of surface seeds such that the later ones have a region, all choices of files, all rounding functions for the coordinates; all files with five fields per line", "why_tests_cant": "A run joins the mesher, the merging of regions, the lists of faces and two writers; a test shows one input, and a wrong index in any of the parts can show only for inputs with other regions or ghosts.", "anchors": ["src/Meshing/MeshingVoroCrust.cpp: generate_explicit_mesh 618-757", "src/Meshing/MeshingVoroCrust.cpp: generate_mesh_from_seeds_file 761-770", "src/Meshing/MeshingVoronoiMesher.cpp: save_exodus_file 3155-3431", "src/Meshing/MeshingVoronoiMesher.cpp: save_vcg_file_pflotran 2969-3152"]}
{"id": "C108", "title": "No cell of the mesh crosses the sampled surface", "statement": "A straight segment between two points in the inside of one and the same cell of the final seeds (surface seeds and interior seeds together) meets no triangle of the sampled surface, so no mesh cell has parts on both sides of a surface triangle. For the seeds the program itself generates, the inside is taken without a layer at the faces of 2e-10 times the largest sphere radius in squared distances, because the interior seeds may lie 1e-10 inside a sphere.", "quantifier": "all sphere sets and stored seeds meeting the conclusions of the surface sampling with no grazing spheres, all further seeds outside the spheres up to a tolerance, all cells, all segments, all triangles; any number of spheres, triangles and seeds", "why_tests_cant": "A test can probe finitely many cells, triangles and points of one surface; the statement is about all points of all segments in all cells of every surface.", "anchors": ["src/Meshing/MeshingVoroCrustSampler.cpp: generate_surface_seeds 3112-3577", "src/Meshing/MeshingVoroCrust.cpp: generate_interior_seeds 307-616", "src/Meshing/MeshingVoronoiMesher.cpp: generate_3d_voronoi_mesh 1620-1949"]}
{"id": "C109", "title": "A whole run from the sampled surface to the mesh files", "statement": "execute_vc after the sampling (region colouring, interior seeds, explicit mesh and files), for a surface without sharp features: the colouring has no undefined behaviour, and two surface seeds get the same region exactly if a chain of neighbouring triangles leads from one to the other along one side of the surface. Region 0 really is the outside: one of its seeds sees, along a straight line that meets no triangle of the surface, a point beyond all seeds in every coordinate. If no points are imposed, the generation of interior seeds has no undefined behaviour; the seeds it ends with have the surface seeds first, unchanged, all other seeds outside the spheres and in a region of a surface seed that is not the outside, and no cell crosses the surface. If these seeds meet the conditions of C105, the run ends and the files hold their Voronoi diagram. A sampling that leaves no seeds makes the program read through a null pointer.", "quantifier": "all sampled surfaces without sharp features meeting the conclusions of C82 and C93 with no grazing spheres, no thin triangles and one fan per sphere; all options, thread counts and random numbers in their ranges; any number of spheres, seeds and rounds", "why_tests_cant": "A test runs one model and looks at the files; which side is called the outside and whether a region leaks through the surface depend on the geometry of every triangle and on the order in which seeds are joined.", "anchors": ["src/Meshing/MeshingVoroCrust.cpp: execute_vc 238-305", "src/Meshing/MeshingVoroCrust.cpp: generate_interior_seeds 307-616", "src/Meshing/MeshingVoroCrustSampler.cpp: color_surface_seeds 1652-2328", "src/Meshing/MeshingVoroCrust.cpp: generate_explicit_mesh 618-757"]}
{"id": "C110", "title": "A whole run for a surface with sharp edges", "statement": "execute_vc after the sampling, for a surface whose sharp edges are covered by edge spheres: the colouring has no undefined behaviour, and two surface seeds get the same region exactly if a chain leads from one to the other whose steps stay on one side of neighbouring triangles or, at an edge sphere, in one sector between two neighbouring sheets. Region 0 is the outside: one of its seeds sees, along a straight line that meets no triangle, a point beyond all seeds. If no points are imposed the generation of interior seeds has no undefined behaviour. The seeds it ends with have the surface seeds first, at their places; the others have a region of a surface seed that is not the outside and are outside the surface spheres; at most two are added per edge sphere, the rest is outside all spheres; no cell crosses a triangle of surface spheres, nor any triangle if no seeds were added at the edges. If the seeds meet the conditions of C105 the run ends and the files hold their Voronoi diagram. With the sampling in front the same holds for execute_vc as a whole.", "quantifier": "all sampled surfaces with sharp edges meeting the conclusions of C82 and C93, with no grazing spheres, no thin triangles, one fan per surface sphere and sheets at different angles around each edge sphere; all options, thread counts and random numbers in their ranges; any number of spheres, seeds and rounds", "why_tests_cant": "A test runs one model. Whether a region leaks past a sharp edge depends on the angles of all sheets around every edge sphere and on the order in which seeds are joined, and the seeds added at edges depend on random numbers.", "anchors": ["src/Meshing/MeshingVoroCrust.cpp: execute_vc 238-305", "src/Meshing/MeshingVoroCrust.cpp: generate_interior_seeds 307-616", "src/Meshing/MeshingVoroCrustSampler.cpp: color_surface_seeds 1652-2328", "src/Meshing/MeshingVoroCrust.cpp: generate_explicit_mesh 618-757"]}
{"id": "C111", "title": "The seeding of the interior ends", "statement": "The loop that throws darts from the front of interior seeds ends, whatever random numbers it draws, if the outer seeds fence the inside: there is a bounded set that holds all seeds with a region, and each point that is neither in this set nor in a sphere of the surface is closer to some outer seed than to the set, by the factor min(1, (1+2L)/(2(1-L))). There is a number of rounds, depending on the seeds, the features and the options only, after which the loop has ended for all random numbers and numbers of threads. Then all seeds with a region are in the set, no size is below the least size r of the given seeds, the sizing points and the maximum, and new seeds keep the distance r from the given ones. The same holds for the whole interior stage without imposed seeds, with the fence taken after the seeds at sharp edges were added, or of the surface seeds if there are no sharp edges. Without the fence it need not end: for one outer and one inner seed on the two sides of one surface sphere there are random numbers for which the loop goes on for ever.", "quantifier": "all features, seeds, options with 0 <= L < 1, thread counts, random numbers in their ranges; any number of seeds, spheres and rounds", "why_tests_cant": "A test sees that one run with one random sequence ends. It cannot show that no sequence keeps the loop going, and a bound on the rounds for all sequences needs a packing argument over all states.", "anchors": ["MeshingVoronoiMesher.cpp:968-1561", "MeshingVoroCrust.cpp:307-617"]}
{"id": "C112", "title": "The rounds on the sharp edges are bounded", "statement": "If everything that limits the radius of a sphere on a sharp edge is at least m > 0 (the largest radius, the corner spheres, and at edge points away from the corners the clearances, the prescribed sizes and the radius that other sharp edges allow in narrow regions), then one number bounds the spheres on the sharp edges and another the rounds of sampling, Lipschitz pass and size validation, for all sequences of random numbers. Whatever is returned has radii at least m and centres at least sqrt(1-alpha^2) m apart, and with that many rounds the run returns unless a sampling pass throws all its darts. A single sampling pass has no such bound: on an edge of length one there are random numbers for which every dart after the first is covered and the function never returns.", "quantifier": "all points and sharp edges, corner spheres, clearance queries and options with 0 <= L < 1 and 0 <= alpha < 1, random numbers in [0,1); any number of edges, spheres, darts and rounds", "why_tests_cant": "A test sees that one run with one random sequence ends. Radii are shrunk and edges are sampled again after each shrinking, so whether this goes on for ever is a question about all sequences and all states.", "anchors": ["MeshingVoroCrustSampler.cpp:1174-1376", "MeshingVoroCrustSampler.cpp:2385-2468", "MeshingSpheresMethods.cpp:59-140"]}
{"id": "C113", "title": "The surface sampling goes on only while radii fall", "statement": "For every surface and every m > 0 one number bounds the surface spheres and another the passes of the outer loop of generate_surface_spheres that are possible while all radii are at least m, whatever the random numbers, the number of threads, the edge and corner spheres and the clearance queries are. While all radii are at least m, all centres are at least sqrt(1-alpha^2) m apart, after every pass and in what is returned. Hence with more passes than that the function returns, has undefined behaviour, one sampling has thrown all its darts, or some radius has fallen below m.", "quantifier": "all surfaces, m > 0, 0 <= alpha < 1, random numbers in [0,1), numbers of threads (one after the other), edge and corner spheres, clearances, sizes, and results of the power-vertex routine in resolve_sliver; any number of faces, spheres, darts and passes", "why_tests_cant": "The outer loop has four reasons to start over (Lipschitz pass, slivers, crowded seeds, open surface mesh), each of which shrinks spheres so that the sampling adds more. A test sees one run that ends; that the reasons cannot alternate for ever without radii going to zero is about all runs.", "anchors": ["src/Meshing/MeshingVoroCrustSampler.cpp:1380-1649", "src/Meshing/MeshingVoroCrustSampler.cpp:2606-2740", "src/Meshing/MeshingVoroCrustSampler.cpp:3112-3577", "src/Meshing/MeshingVoroCrustSampler.cpp:3581-3702", "src/Meshing/MeshingSpheresMethods.cpp:375-433"]}
{"id": "C114", "title": "The saved tessellation reads back", "statement": "save_Voronoi_tessellation writes a valid ascii PLY file: a reader of the PLY format that trusts only the header gets back every vertex (as printed) and every face with its corners in order, the counts in the header being those of the body. The variant with a plane writes exactly the faces with a corner ahead of the plane. The file is invalid, however, as soon as a face has 256 or more corners, since the number of corners is declared as uchar.", "quantifier": "all vertex arrays, numbers of vertices and faces, face arrays, printing functions that the reader inverts up to rounding, planes", "why_tests_cant": "A round trip over all meshes is needed; a test compares a few files with stored ones and has no face of 256 corners.", "anchors": ["src/Meshing/MeshingVoronoiMesher.cpp:2293-2425"]}
{"id": "C115", "title": "Integration over a cell along spokes is exact for the polynomials it interpolates", "statement": "integrate_vps returns the mean over the spokes of (area of the unit sphere) times the integral of f(r) r^(n-1) along the spoke, negative values counting as zero, whenever f is a polynomial along each spoke of the order of the cell; for f = 1 that is the mean of the volumes of the balls whose radii are the spoke lengths. The constant used is the area of the unit sphere in every odd dimension and even dimensions up to 40. The spokes are cut at the bounding box: each ends on the spoke, in the box, and at its neighbour or on the boundary. The sample drawn along a spoke is found by a search that ends and inverts the distribution up to 1E-6.", "quantifier": "all dimensions n >= 1 (even ones up to 40), boxes, seeds in the box, lists of spokes, functions that are polynomials along the spokes, orders, and random numbers in [0,1]", "why_tests_cant": "The result is a real number that depends on random spokes; a test can only compare approximate values for a few cells and cannot see that the formula is exact for a whole space of functions or that the search ends for every random number.", "anchors": ["src/Meshing/MeshingVoroSpokes.cpp:1543-1831"]}
{"id": "C116", "title": "Seeds and monitoring points written to file read back, so a run can be restarted", "statement": "The seeds that save_spheres_csv writes to seeds.csv come back from read_seeds_csv in the same order with their sizes and regions, the numbers as printed; so generate_mesh_from_seeds_file on that file is the explicit mesh of the printed seeds. Monitoring points written without sizes and regions come back from load_spheres_csv in any dimension. A file of monitoring points used as a seeds file is undefined behaviour.", "quantifier": "all lists of seeds and of points, all dimensions, all printings of numbers without commas and newlines that the reader inverts up to rounding", "why_tests_cant": "The round trip must hold for every seed set; a test compares a file or two. The array layouts of the two variants (stride num_dim and stride num_dim + 1) have to agree with two different readers.", "anchors": ["src/Meshing/MeshingVoronoiMesher.cpp:2560-2635", "src/Meshing/MeshingVoroCrust.cpp:553", "src/Meshing/MeshingVoroCrust.cpp:761-825"]}
{"id": "C117", "title": "Adaptive sampling draws cells in proportion to their weights", "statement": "After every seed added with an order of at least one, entry i of the cumulative table is the sum of the current weights of the cells up to i, exactly the neighbours and the new cell were integrated again for any number of threads, the arrays have room for the next seed, and a suggestion comes from the cell in whose share of the total weight the random number falls.", "quantifier": "all orders of at least one, thread counts, budgets, neighbour lists, integration values and sequences of added seeds and suggestions", "why_tests_cant": "The table depends on the whole history of additions, on the split over threads and on the growth of the arrays; tests see a few histories and a few draws.", "anchors": ["src/Meshing/MeshingVoroSpokes.cpp:61-100", "src/Meshing/MeshingVoroSpokes.cpp:192-333", "src/Meshing/MeshingVoroSpokes.cpp:1186-1229"]}
{"id": "C118", "title": "The mean over neighbouring cells is a weighted mean of their models", "statement": "evaluate_vwn away from the seeds returns the mean of the models of the neighbours found, with positive weights that sum to one in proportion to the squares of hits over distance, so the result lies between the values of the models and equals them where they agree; within 1e-10 of a seed it returns the stored value of a nearest seed; with no layers it returns the model of a nearest seed.", "quantifier": "all trees of seeds in any dimension, points, numbers of layers and spokes, directions drawn and models", "why_tests_cant": "The weights depend on random directions and on which seeds end the spokes; tests can only compare a few points within a tolerance.", "anchors": ["src/Meshing/MeshingVoroSpokes.cpp:347-421", "src/Meshing/MeshingSmartTree.cpp:780-1018"]}
{"id": "C119", "title": "The Exodus file holds the mesh", "statement": "For every mesh whose numbers fit an int, saving it as an Exodus file never leaves an array, and a reader of the file gets back the points rounded to single precision, the faces, and as elements the cells with a region other than 0, all in their order; all node and face numbers in the file are valid if those of the mesh are. The regions themselves are not in the file.", "quantifier": "all meshes", "why_tests_cant": "Tests open files of a few meshes and never read the regions back", "anchors": ["src/Meshing/MeshingVoronoiMesher.cpp:3155-3431"]}
{"id": "C120", "title": "Lists handed to the Exodus writer are stored as given or refused", "statement": "For all lists of connectivity, node and element numbers, node sets and side sets and for every title, the writer either stores exactly what it was given or throws; it does neither for lists that are too short, for side sets and for long titles.", "quantifier": "all lists and titles", "why_tests_cant": "Reading past the end of a list shows nothing in most runs", "anchors": ["src/Meshing/MeshingExodusIO.cpp:113-150", "src/Meshing/MeshingExodusIO.cpp:226-429"]}
{"id": "C121", "title": "The sharp edges of an input mesh are each found once", "statement": "For every triangle mesh without repeated corners, the table of sharp edges holds each sharp edge once: exactly the edges that are not shared by two faces and the edges between two faces that enclose a sharp angle, whatever corner the lists of the faces begin with.", "quantifier": "all triangle meshes, thresholds and normals", "why_tests_cant": "Tests use closed, consistently oriented models, where the test of the direction never matters", "anchors": ["src/Meshing/MeshingPolyMesh.cpp:1408-1483"]}
{"id": "C122", "title": "The corners of an input mesh and the lookup of sharp edges are right", "statement": "For every triangle mesh without repeated corners the extraction never leaves an array; the corners are exactly the points where one sharp edge ends, three or more meet, two enclose a sharp angle, or two faces that share nothing else meet sharply; the lookup of an edge finds exactly the sharp edges, and the smallest angle is that of the smooth edges.", "quantifier": "all triangle meshes, thresholds and normals", "why_tests_cant": "Meshes with non-manifold points and edges are rarely in tests", "anchors": ["src/Meshing/MeshingPolyMesh.cpp:1053-1158", "src/Meshing/MeshingPolyMesh.cpp:1485-1612", "src/Meshing/MeshingPolyMesh.cpp:1725-1742"]}
{"id": "C123", "title": "The contour plot shows each value in its band", "statement": "The contour plots of the surrogate (plot_function, plot_function_slice) draw in each square of the grid, for each band between two neighbouring levels, a polygon whose vertices are different points in order around the square. On each side of the square the part between vertices has values (taken linearly between the corners) in the band up to 1e-10, and every point of the side with a value from the first to the last level is within 1e-10 of a drawn one. The levels do not decrease and are equally spaced. The picture is undistorted, fits between margins of one inch on a page of 8.5 by 11 inches and fills one direction. The colours are valid and differ from band to band.", "quantifier": "all values at the corners, all boxes and squares of positive size, all extremes and numbers of levels", "why_tests_cant": "the cases of a side depend on the order of two values and two levels with tolerances; a picture that looks right is no test of the rare cases", "anchors": ["src/Meshing/MeshingVoroSpokes.cpp:422-795", "src/Meshing/MeshingVoroSpokes.cpp:796-1172"]}
{"id": "C124", "title": "Which function a contour plot shows", "statement": "plot_function shows the function of the given index, and the estimate of the error for an index past the last function; it is defined exactly in at most two dimensions, since it samples into an array of two numbers. plot_function_slice shows the function of the given index, and reads past its array exactly for an index that is not that of a function.", "quantifier": "all indices, numbers of functions and dimensions", "why_tests_cant": "reading or writing past a small array on the heap seldom shows in a test", "anchors": ["src/Meshing/MeshingVoroSpokes.cpp:466-484", "src/Meshing/MeshingVoroSpokes.cpp:500-524", "src/Meshing/MeshingVoroSpokes.cpp:848-882"]}
{"id": "C125", "title": "The check of a surface mesh shrinks exactly the spheres at its holes", "statement": "valid_surface_mesh of MeshingPolyMesh visits every edge of the surface triangles. No radius grows. At each edge that belongs to one triangle only, both spheres end with at most 0.49 times the length of the edge, so they do not overlap; a radius that changed is 0.49 times the length of such an edge at its sphere. The number reported is that of the spheres that changed; a mesh without such edges is watertight and nothing changes. The flags tell which kinds of spheres changed and the value returned tells whether the mesh is valid.", "quantifier": "all numbers of surface, edge and corner spheres, all triangle meshes without repeated corners, all radii and symmetric distances, all flags given", "why_tests_cant": "the result depends on the order in which the edges are visited only through the smallest bound; a test sees one order", "anchors": ["src/Meshing/MeshingPolyMesh.cpp:866-1009"]}
{"id": "C126", "title": "Updating a Cholesky factor and removing a row from it give the factors of the changed matrices", "statement": "Given a Cholesky factor with a positive diagonal, Cholesky_factorization_rank_one_update with a vector x ends without dividing by zero and leaves the factor, again with a positive diagonal, of the matrix plus x times its transpose. Cholesky_factorization_remove_row leaves the factor of the matrix without the row and column that are removed. In both cases the transpose that is stored with the factor agrees with it. No memory outside the arrays is read.", "quantifier": "all numbers of rows, all sparse factors with a positive diagonal, all sparse vectors, all rows to remove", "why_tests_cant": "the fill-in pattern of the factor depends on the pattern of the matrix and of the vector; a test fixes one pattern, and a read past the end of an array usually has no visible effect", "anchors": ["src/Meshing/MeshingLinearSolver.cpp:278-357", "src/Meshing/MeshingLinearSolver.cpp:358-524"]}
{"id": "C127", "title": "The construction of a Voronoi cell in the tree visits every face that can be reached and each once", "statement": "get_3d_Voronoi_cell ends for every tree with at least two points, after at most as many faces as there are points. The list of neighbours has no repetitions and does not contain the seed; the first is the closest point. Each other neighbour was found at a corner of a face that was built before it, and every point found at a corner of a face is a neighbour with a face of its own, so the neighbours are exactly the points that can be reached from the closest one through corners. The volume is the sum over the faces of a third of area times height, and unbounded exactly where a face is.", "quantifier": "all numbers of points, all seeds, all faces and all results of the search at the corners", "why_tests_cant": "the order in which the faces are found depends on the geometry; a test sees one cell", "anchors": ["src/Meshing/MeshingSmartTree.cpp:1094-1313"]}
{"id": "C128", "title": "The surface mesh that is saved is the one of the last pass", "statement": "generate_surface_mesh of MeshingPolyMesh ends, and clean_mesh.obj then holds the triangles of the intersection pairs of the last pass, which found no slivers. The spheres of the slivers that earlier passes found have the radii that resolve them, all others are unchanged up to the final check, and the flags tell which kinds of spheres shrank. Every pass uses the Lipschitz constant that was given.", "quantifier": "all numbers of spheres, all radii, all results of the passes", "why_tests_cant": "the slivers that make a second pass necessary depend on the geometry; a test without slivers sees a correct file", "anchors": ["src/Meshing/MeshingPolyMesh.cpp:504-864"]}
{"id": "C129", "title": "A kd-tree frees its memory exactly once", "statement": "For every sequence of calls that add points to a kd-tree, with or without attributes, make its random samplers, or clear it, followed by its destructor: no block is freed twice, no write goes to a null array or past the end of one, and after the destructor exactly the blocks that do not belong to the tree are allocated.", "quantifier": "for all sequences of calls, all numbers of points and samplers", "why_tests_cant": "A test runs a few sequences, and a block that is freed twice or lost goes unnoticed without a memory checker; whether every sequence is safe depends on an invariant over all of them.", "anchors": ["src/Meshing/MeshingSmartTree.cpp:43-116", "src/Meshing/MeshingSmartTree.cpp:388-496", "src/Meshing/MeshingSmartTree.cpp:535-593"]}
{"id": "C130", "title": "The Voronoi face between two seeds is closed and its corners are Voronoi vertices", "statement": "When the kd-tree constructs the Voronoi face between two seeds and reports it as found, every seed around the face stopped a spoke from the face, there are none or at least two of them, they are in the order of their angles with no two closer than the tolerance around the circle, consecutive ones are at most half a turn apart, and no seed cuts off a corner between two of them. The construction reads no index that was not set.", "quantifier": "for all answers of the geometric routines, all numbers of rounds and of neighbours", "why_tests_cant": "A test tries a few faces; which neighbours are found depends on random spokes and on tolerances that interact over several rounds, and a read of an unset index may give the right result by chance.", "anchors": ["src/Meshing/MeshingSmartTree.cpp:1315-1923"]}
{"id": "C131", "title": "A surrogate frees its memory exactly once", "statement": "For every sequence of calls that set up a MeshingVoroSpokes, add seeds one by one or many at once, ask for a new sample or clear it, followed by its destructor: no block is freed twice, no access goes to a null array or past the end of one, and after the destructor exactly the blocks that do not belong to the surrogate are allocated.", "quantifier": "for all sequences of calls, all numbers of seeds, functions and threads, and all choices of the models that are built", "why_tests_cant": "A test adds a few seeds and does not see a lost block; whether the arrays grow in time and every pointer is freed once depends on an invariant over all sequences of calls.", "anchors": ["src/Meshing/MeshingVoroSpokes.cpp:40-190", "src/Meshing/MeshingVoroSpokes.cpp:209-331", "src/Meshing/MeshingVoroSpokes.cpp:1173-1229", "src/Meshing/MeshingVoroSpokes.cpp:1406-1522"]}
{"id": "C132", "title": "The active pool leaves no memory behind", "statement": "For every run that fills the active pool with the edges of a model or with its patches of faces, and refines each pool until nothing in it is uncovered: no block is freed twice, no code is read past its end, no write goes past an array, and when the pools are empty exactly the blocks that do not belong to the pool are allocated.", "quantifier": "for all numbers of pools, entries, threads and refinements, and all choices of what is covered", "why_tests_cant": "A run makes thousands of refinements; a lost array shows only as memory that grows, and a test with a memory checker covers the few patterns of coverage it meets.", "anchors": ["src/Meshing/MeshingVoroCrustSampler.cpp:2360-2430", "src/Meshing/MeshingVoroCrustSampler.cpp:2540-2620", "src/Meshing/MeshingVoroCrustSampler.cpp:2757-2875", "src/Meshing/MeshingVoroCrustSampler.cpp:3036-3108"]}
{"id": "C133", "title": "The input surface is freed exactly once", "statement": "For every list of input files, whatever number of points and faces they have and whatever the welding merges and removes, the surface handed to the mesher consists of allocated blocks no two of which are the same, the welding keeps every face that is not degenerate exactly once, and when execute ends every block of the surface was freed exactly once and nothing else was.", "quantifier": "all non-empty lists of files, all numbers of points and faces, all weldings, all heaps", "why_tests_cant": "A double free or a lost block shows only for particular patterns of degenerate faces at the end of the array, merged files and welded points, and often without any visible failure.", "anchors": ["src/Meshing/MeshingPolyMesh.cpp:190-334", "src/Meshing/MeshingPolyMesh.cpp:362-501", "src/Meshing/MeshingVoroCrust.cpp:173-234", "src/Meshing/MeshingVoroCrustSampler.cpp:590-593"]}
{"id": "C134", "title": "A run gives back the memory it takes", "statement": "For every run of execute_vc, whatever the numbers of sharp edges, corners, spheres, sizing points and imposed points, however often the seeds are replaced and whichever files are asked for, nothing is freed that is not allocated, the sizing function and every tree, sampler and array is freed exactly once, and nothing is left.", "quantifier": "all combinations of inputs and options, all numbers of features, spheres, points and rounds", "why_tests_cant": "A run takes hours on real input, lost blocks do not show in its results, and the combinations of options and empty lists that matter are too many to run under a memory checker.", "anchors": ["src/Meshing/MeshingVoroCrust.cpp:237-305", "src/Meshing/MeshingVoroCrust.cpp:307-615", "src/Meshing/MeshingVoroCrust.cpp:745-757"]}
{"id": "C135", "title": "The interior seeding frees each array once and leaves only the seeds", "statement": "For every run of generate_interior_seeds, whatever the rounds of its loop find - no new seed, new seeds that fit into the array of the interior spheres, or new seeds that make it move all of them to the seeds and build the tree again - no array is freed that is not allocated, the seeds given back are three arrays that are allocated and distinct, and all other memory is as it was before the call.", "quantifier": "all arrays of seeds, heaps, numbers of rounds, kinds of rounds, numbers of active seeds", "why_tests_cant": "Which rounds occur depends on the random darts, and a round of another kind at another time may be the one that frees twice or forgets; tests see a handful of sequences and do not notice a lost block.", "anchors": ["src/Meshing/MeshingVoronoiMesher.cpp:839-865", "src/Meshing/MeshingVoronoiMesher.cpp:994-1102", "src/Meshing/MeshingVoronoiMesher.cpp:1392-1584"]}
{"id": "C136", "title": "Making the explicit mesh leaves no memory behind", "statement": "For every set of seeds, however often the radius of the search is doubled for a cell, however many neighbours are found and corners are cut, and whichever seeds are ghosts: get_3d_Voronoi_cell never writes behind the end of its arrays and leaves exactly the four arrays of the cell, generate_3d_voronoi_mesh leaves exactly the vertices, the array of faces and one array for each face, and generate_explicit_mesh frees these and the arrays of the seeds, each once, so that after a mesh from a file of seeds all memory is as before.", "quantifier": "all numbers of seeds, ghosts, radii, neighbours, corners and faces, with or without the vcg file and the Exodus file, all heaps", "why_tests_cant": "The arrays grow when they are full and are replaced when a radius is too small, at moments that depend on the geometry; a test sees few of these and does not notice a block that is lost.", "anchors": ["src/Meshing/MeshingVoronoiMesher.cpp:1620-2289", "src/Meshing/MeshingVoronoiMesher.cpp:2746-2762", "src/Meshing/MeshingVoroCrust.cpp:618-768"]}
{"id": "C137", "title": "Adding seeds leaves no memory behind", "statement": "For every run that adds seeds beside sharp edges and at imposed points, with any numbers of spheres, of neighbours and of added seeds: no block is freed twice, no array that grows is written past its end, and afterwards exactly the three arrays of the seeds, the array of the imposed points if they were asked for, and what was allocated before remain. The arrays of the seeds are new ones if a seed was added, and the old ones if none was.", "quantifier": "all sets of spheres, numbers of neighbours, and numbers of added seeds and imposed points", "why_tests_cant": "the arrays grow only after a hundred added seeds, each test has its own way out of the loop that must free the point, and a leak is not seen in the output", "anchors": ["src/Meshing/MeshingVoronoiMesher.cpp:55-447", "src/Meshing/MeshingVoronoiMesher.cpp:449-836", "src/Meshing/MeshingVoronoiMesher.cpp:2591-2635", "src/Meshing/MeshingVoroCrust.cpp:395-439"]}
{"id": "C138", "title": "From the seeds to the mesh all memory is freed", "statement": "For every run from the surface seeds to the mesh - with any spheres, any seeds added beside sharp edges or at imposed points, any rounds of the front, and any cells - no block is freed twice, no array that grows is written past its end, and after the mesh the same blocks are allocated as before.", "quantifier": "all runs: sets of spheres, imposed points, rounds of the front, radii, neighbours, corners and faces, with and without the output files", "why_tests_cant": "the functions hand arrays to each other and replace them on many ways through the code; a test sees neither a lost block nor which way was taken", "anchors": ["src/Meshing/MeshingVoroCrust.cpp:295-302", "src/Meshing/MeshingVoroCrust.cpp:307-616", "src/Meshing/MeshingVoronoiMesher.cpp:55-1618"]}
