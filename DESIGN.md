# Formal model of vorocrust-meshing: design

Code under study: `/repo/src/Meshing` (C++), read as text, never built or run.
The model and proofs are Lean 4 (4.33.0) with single Mathlib modules.
`lean/Verif/Model/*` holds the model, `lean/Verif/Lemmas/*` helper lemmas, and
`lean/Verif/Props/*` the specifications, the property theorems and the
non-vacuity examples.  `MANIFEST.json` maps each property of
`properties.jsonl` to theorem names.

## Trusted base

* Lean's kernel, and the axioms `propext`, `Classical.choice`, `Quot.sound`
  (`Verif/Audit.lean` prints the axioms of the property theorems).
* The reading of the C++ by the author: each definition cites the lines it
  models.  There is no mechanical link between the C++ and the model.
* Scalars.  `double` is modelled in one of three ways, stated per definition:
  (a) an arbitrary type with an arbitrary decidable comparison (covers NaN and
  every rounding behaviour) for structural claims; (b) reals with every
  arithmetic operation followed by an arbitrary monotone rounding function;
  (c) exact reals.  (c) says nothing about rounding error.
* `size_t` is modelled by `Nat`.  Where wrap-around is reachable (for example
  `num_points - 1` with no points) the model makes it an explicit failure.
* Undefined behaviour (out-of-range access, integer division by zero, use of a
  dangling pointer) is a distinct outcome (`none` or `Except.error`), never a
  default value.
* Memory deallocation, I/O buffering, wall-clock, logging and CMake are not
  modelled.  OpenMP is modelled only where a property is about schedules: as
  interleavings of the memory reads and writes of the threads.

## Conventions

* A loop becomes a structural or well-founded recursion, or takes fuel; where
  fuel is used a theorem shows that enough fuel exists (or, for the
  non-termination findings, that no amount is enough).
* Pointers to arrays become `List`/`Array`/functions on `Nat` together with a
  length.  Mutation returns the new value.
* When the property is false of the code the negation is proved with a witness
  (theorem suffix `_false`/`_bug`), and what does hold is proved with suffix
  `_partial`.

## Plan per property

| id | model | proof |
|----|-------|-------|
| C01 | `addEntry` on (cells, num, cap) with bounds-checked write | invariant by induction over calls |
| C02, C03 | `quicksort` on arrays of records with bounds-checked access, generic comparison | well-founded recursion; partition invariant; permutation and sortedness for total preorders, permutation/range for any comparison |
| C04 | kd-tree as node store with left/right child index, insertion walk | refinement to inductive tree; invariant over insert sequences |
| C05 | median-target quicksort recursion, then insertion in that order | permutation argument, reuse of C04 |
| C06, C07 | recursive descent with bound, eligibility predicate, optional rounding | induction on the tree with search-order invariant; prune lemma |
| C08, C09 | in-sphere descent | soundness/completeness by induction, also on the boundary of the sphere (`C08_in_sphere_boundary`); counterexample with two trees for C09 |
| C10 | adjacency lists with `[cap,num,...]` layout | refinement to a set of pairs |
| C11 | preorder (right first) enumeration | inverse permutation lemma |
| C12 | character loop of `get_tokens` | induction over the string |
| C13 | line fold of `execute` with token access as `Option` | induction over the lines |
| C14 | `argv` decision function | case analysis |
| C15 | concatenation with index offset | induction over files |
| C16 | line fold with bounds-checked fields | induction over lines |
| C17 | greedy representative loop, swap-with-last face removal | invariants |
| C18 | prefix renumbering | induction |
| C19, C56 | count pass, fill pass with bounds-checked writes | fold invariants |
| C20, C21, C22 | edge incidence counting | list lemmas; counterexample for C22 |
| C23 | orientation propagation | invariant; counterexamples |
| C24, C25, C28 | search radius formula over exact reals, in-sphere query by contract C08 | triangle inequality, convexity |
| C26 | pairwise update sweep over reals | invariants, greatest minorant |
| C27 | neighbour-limited sweep | counterexample, partial result on compared pairs |
| C29 | candidate loop | fold invariant |
| C30, C42, C43, C44, C39 | vector arithmetic over reals | algebra |
| C31, C32, C33 | pool of bit paths, subdivision, thread chunks | induction over refinement rounds; convexity |
| C34 | integer ranges | arithmetic |
| C35 | binary search | loop invariant |
| C36 | generator step over multiples of 2^-53 | invariant over draws |
| C37 | sorted spacings | C02 + algebra |
| C38 | clamp, pairwise cap, C26 | algebra |
| C40 | repeated sweeps until no change | invariants; components |
| C41 | renaming table loop | counterexample + partial |
| C45, C46 | sorted association array | refinement to finite map |
| C47 | substitution loops over a field | algebra |
| C48, C59 | two-thread interleavings | counterexample schedule; sequential theorem |
| C49 | deactivation loop | counterexample + partial |
| C50 | round state machine | invariant |
| C51, C77 | cell construction with the polytope of C76 | triangle inequality, convexity; invariants of C76 |
| C52 | radius doubling loop with fuel | no fuel suffices for zero sizing / unbounded cell |
| C53 | pointer table of cell corners, chase | well-founded measure: a pointer leads to a corner of smaller (cell rank, position), so chasing ends |
| C54, C55, C57, C58 | numbering, filters, shuffles | fold invariants |
| C60 | `repeat_index` loop | counterexample + partial |
| C61, C78 | edge listing loop; edge incidence, counting different edges | exact multiplicity; counterexample + partial; counting by finite sets |
| C62 | allocation sizes | counterexample + partial |
| C63 | multi-index odometer, Chebyshev recursion | induction |
| C64 | handle state machine | invariant over histories; counterexample + partial |
| C79, C80 | arrays handed to the Exodus library, with sizes | loop invariants, round trip |
| C81 | edge sphere tree, pool, random stream, fuel for the `while (true)` loops | invariant of the run; returned runs only |
| C82 | surface sphere tree, face ids, radius left over per thread, pool, random streams, fuel | invariant of the run; returned runs only |
| C83 | one pass over a sphere tree | equation for every input |
| C84 | walks around the spheres with fuel, connection graphs, then the colouring of C40 | ring invariant of the walk; parity of orientations; components |
| C85 | the sheets at an edge sphere sorted by angle and walked along, then as for C84 | edges walked so far as invariant; cyclic order of the sheets; totality by the number of unmarked seeds |
| C86 | arctangents with case distinctions | polar coordinates |
| C87 | neighbour searches with a direction, circles of two spheres, best random candidate | circle frames, nearest spheres and seeds, outcome per circle |
| C88 | kd-tree search for the seed that cuts a spoke, verification and second search | distances to seeds along the spoke |
| C89 | layers of spokes, list of neighbours with hits and levels | distinctness, counts of spokes per seed |
| C90 | writing and reading files of points, line by line | any file: defined exactly when every line means a record; round trip with the cases of attributes |
| C91 | records of tree points, attribute queries | exact definedness, frame, read-back |
| C92 | clouds as trees with directions, closest-point queries with a filter | exact characterisation of points and distances |
| C93 | composition of detection, corner, edge and surface spheres | definedness of the stages, result of returning runs, undefined shape |
| C94 | members left by the two detections | negation: no input with a minimum radius gives a result |
| C95 | invariant: Q keeps lengths, QA = R, first columns triangular; after a dependent column everything below is NaN | minimiser, unique; dependent columns: negation; undefined cases |
| C96 | C95 for the equations of the bisectors | equidistant, unique; flat sets: negation |
| C97 | invariant of the forward substitution; invariant `IsFactor` along histories | border identity up to dropped entries; completeness; undefined case |
| C98 | composition of the stages of `generate_interior_seeds` | each stage extends the list (`SeedsGrow`); blocked front for runs that end |
| C99 | weighted regression of `build_vps_model`, evaluation | refinement to C63 (basis), C89 (neighbours), C95 (least squares); shift of a polynomial |
| C100 | text of OBJ files, merging of input files | round trip of `save_mesh_obj` and `read_input_obj_file`; composition of C65, C15 and C17; witness for 16 digits |
| C101 | `trim_vertex` on a polytope with planes | invariant `Poly.Shape` (corners, walls and solid agree), kept by every cut; planarity not needed |
| C102 | `generate_3d_voronoi_mesh` as a whole, on top of C51-C54, C77, C101 | `IsVoronoiMesh`: vertices and faces are exactly those of the Voronoi cells; general position, separation and bounded inner cells are hypotheses, exact reals |
| C103 | `save_vcg_file_pflotran` applied to the result of `generate_3d_voronoi_mesh`, on top of C54, C55, C77, C102 | `VcgVoronoi`: cell volumes and face areas against Lebesgue measure (Mathlib `volume` on `Fin 3 → ℝ`); exact reals, the printed digits are not modelled; hypotheses of C102 or of C105 (`C103_gap`, `C103_grid`) and one seed with a region |
| C104 | seeds of the surface sampling together with the interior seeds, on top of C39, C82, C84, C98 | for all points of space: triangle of the three centres iff common face of the two Voronoi cells; `NoGrazing` and shared edges are hypotheses |
| C105 | `generate_3d_voronoi_mesh` as a whole for seeds with ties, on top of C51-C54, C77, C101 | `IsDiagramMesh`: vertices and faces are exactly those of the Voronoi cells, any number of cells at a vertex; gaps of 1e-10, at most 102 nearest seeds at a point, separation and bounded inner cells are hypotheses, exact reals |
| C106 | `generate_3d_voronoi_mesh` on the stored seeds of the surface sampling and further seeds, on top of C104 and C105 | for every triangle next to a cell: exactly one face of the mesh, between its two seeds, with three vertices at the centres of its spheres; hypotheses of C104 and C105 |
| C107 | `generate_explicit_mesh`, `generate_mesh_from_seeds_file`, `save_exodus_file` as a whole, on top of C16, C41, C56, C80, C103 and C105 | the run ends, the mesh is the Voronoi diagram, regions are only merged along touching interior cells, the VCG file has the true volumes and areas, the Exodus arrays are the vertices, faces and inner cells of the mesh; hypotheses of C105, interior seeds have a region, the numbers fit into `int` |
| C108 | the Voronoi cells of all final seeds and the triangles of the surface, on top of C39, C82, C98, C104 | a segment inside one cell meets no triangle, for all points of space; tolerance as a parameter, 2e-10 times the largest radius for a run; hypotheses of C104 |
| C109 | `execute_vc` after the sampling as one run, on top of C38, C41, C84, C98, C104, C107, C108; the releases of trees are left out | regions are the sides of the surface, region 0 is outside (the segment from its seed to a far point stays in the closed cell of that seed and so misses all triangles), seeds, cells and files as in C107 and C108; case: four spheres around a tetrahedron, run to the end |
| C110 | `execute_vc` after the sampling for surfaces with sharp edges, on top of C85, C87, C98, C107, C108 | regions are chains along one side of the surface and, at sharp edges, within one sector between two sheets; region 0 is outside; seeds, cells and files as in C109; case: six spheres around an octahedron whose equator is a sharp edge, run to the end for all candidates on the circles |
| C111 | the loop of `generate_interior_seeds` and the interior stage around it | the seeding ends: if the outer seeds fence a bounded inside there is a number of rounds, for all random numbers and thread counts, after which the loop has ended; proof by packing (accepted darts stay inside and keep a distance) and nested induction; cases: the octahedron with spheres of size 4 and of size 33, the tetrahedron; finding: without the fence (an open surface, a gap in the outer seeds) the loop can go on for ever, the code has no bound on the rounds |
| C112 | the loop of `generate_edge_spheres` | the rounds of sampling, Lipschitz pass and size validation are bounded for all random numbers, and so is the number of spheres (packing; a potential that each new sphere and each shrinking by the validation uses up; the Lipschitz pass is idempotent); finding: one sampling pass is not bounded, with all random numbers zero it never ends on an edge of length one (the model takes any numbers in [0,1); the real generator may never produce this sequence) |
| C113 | the loop of `generate_surface_spheres` | for every surface and `m > 0`: while all radii are at least `m` the centres are sqrt(1-alpha^2) m apart and the number of spheres and of passes is bounded, for all random numbers, threads one after the other; packing and the potential of C112, every pass that does not return adds a sphere, shrinks one by a fixed factor or is a Lipschitz pass that is not repeated; nothing is claimed about whether radii stay above some `m`, and one sampling is not bounded (as in C112) |
| C114 | `save_Voronoi_tessellation` (two variants) | a PLY reader that trusts only the header gets the vertices and faces back, the half-space variant keeps exactly the faces with a corner ahead; files with a face of 256 corners are invalid (uchar) |
| C115 | `spherical_integration_constant`, `integrate_vps` | the constant is the area of the unit sphere (Mathlib's measure); the value is the mean of the polar integrals for all functions that are polynomials of the order of the cell along the spokes; ends of the spokes in the box; the binary search for the sample ends and inverts the distribution; false in dimension 42, no end for a spoke with integral zero |
| C116 | `save_spheres_csv` with `read_seeds_csv`, `load_spheres_csv`, `generate_mesh_from_seeds_file` | round trips of seeds and of monitoring points in any dimension; a run on the saved seeds is the run on the printed seeds; finding: a file of monitoring points as seeds file is undefined behaviour |
| C117 | adaptive mode of `MeshingVoroSpokes`: `add_new_seed`, `suggest_new_sample`, `set_sampling_function`, `add_samples` | invariant over all sequences of added seeds and suggestions: the table holds the sums of the current weights; cells are drawn in proportion to their weight; findings: choosing another function is undefined, order zero never draws some cells, the table is stale after a suggestion, samples added with `add_samples` have no weights |
| C118 | `evaluate_vwn`, `evaluate_vps` with estimate | for all seeds, points and directions: the result is the mean of the neighbours' models with positive weights, it is between their values, at a seed it is the stored value, with no layers it is the model of the nearest seed; findings: undefined without neighbours, estimate not set at a seed |
| C119 | `save_exodus_file` | for every mesh whose numbers fit an `int`: the arrays are never left, and a reader gets back the rounded points, the faces and the cells with a region, in their order; findings: the regions are not in the file, undefined with more points than the largest `int` |
| C120 | the Exodus writer class | for all lists: what is refused, what is stored as given, and what is undefined behaviour; findings: lists that are too short are not refused, elements and sides are exchanged in a side set, a title of more than 80 characters overruns an array |
| C121 | `extract_model_sharp_features`, edges | for every triangle mesh without repeated corners: each sharp edge once, exactly those not shared by two faces and those with a sharp angle; findings: the test of the direction looks at the wrong corners |
| C122 | `extract_model_sharp_features`, corners; `sharp_edge`; smallest angle of `process_model` | for every such mesh: no undefined behaviour, exactly the corners, the lookup finds exactly the sharp edges, the cosine is the smallest over the smooth edges; finding: the smallest angle ignores the direction |
| C123 | `plot_function`, `plot_function_slice`: levels, polygons, colours, page | for all values, levels and boxes: each polygon is a list of different points in order around its square, shows only values in its band and fits between the margins, no two bands have the same colour, nothing between the first and the last level is left out; finding: a side that falls from just above a band is cut short |
| C124 | `plot_function`, `plot_function_slice`: index of the function, dimensions | which function is plotted, and findings: the slice reads past its array for the index of the error estimate, the plot writes past its array in more than two dimensions |
| C125 | `MeshingPolyMesh::valid_surface_mesh` | for every mesh of triangles without repeated corners: exactly the spheres at open edges shrink, to exactly the smallest bound, so that they do not overlap; findings: the corner flag is never set, the value returned is always `false` |
| C126 | `Cholesky_factorization_rank_one_update`, `Cholesky_factorization_remove_row` | for every factor with a positive diagonal: the update gives the factor of the matrix plus the vector times itself, the removal that of the matrix without the row and column; finding: the search for the first entry after the diagonal can read past the array |
| C127 | `MeshingSmartTree::get_3d_Voronoi_cell` | for every tree and all faces: the construction ends, every neighbour has one face, and the neighbours are exactly the points reached from the closest one through the corners of the faces; the volume is that of the pyramids |
| C128 | `MeshingPolyMesh::generate_surface_mesh` | without slivers the mesh of the pass is written; the slivers shrink to their new radii with the right flags; findings: with slivers the file ends without triangles, the constant given is not used after the first pass, the recursion has no end of its own |
| C129 | the constructors, `add_tree_point`, `init_random_samplers`, `clear_memory` and the destructor of `MeshingSmartTree` | points and clearing in any order: nothing freed twice, nothing lost, no array overrun; findings: a tree with samplers that is cleared frees them twice, a tree made from an array cannot take a point |
| C130 | `get_3d_Voronoi_face` of `MeshingSmartTree` | the seeds around a face come from spokes, stand in the order of their angles, are apart and leave no gap of more than half a turn; every corner was tested; finding: a triangle with nothing behind its first corner makes the code read an index without a value |
| C131 | memory of `MeshingVoroSpokes` | with seeds added one by one, every block is freed once, no two pointers are the same, and the arrays grow in time; findings: `add_samples` writes past the arrays, loses blocks and leaves no samples, and `clear_memory` before the destructor frees the samplers twice |
| C132 | memory of the active pool of the sampler | over any run of pools and refinements, every block is freed once, no code is read past its end, and the emptied pool leaves nothing behind |
| C133 | memory of the input surface: `read_input_obj_file`, the merging of files, `weld_nearby_points` and the end of `execute` | for any files and any welding, the surface given to the mesher consists of allocated blocks, no two the same; the welding keeps each face that is not degenerate once; at the end every block was freed once, unless the feature detection with a minimum radius removed a face, and then always one is freed twice |
| C134 | what `execute_vc` and `generate_interior_seeds` allocate and hand on | over every run nothing is freed that is not allocated, and what is left is known exactly; findings: four kinds of lost blocks |
| C135 | `generate_interior_seeds` | over every run nothing is freed twice, and beside the arrays of the seeds one block more is there than before; finding: this block |
| C136 | `generate_explicit_mesh`, `generate_3d_voronoi_mesh`, `get_3d_Voronoi_cell`, `trim_vertex` | every array is freed once, no array of neighbours or corners is written behind its end, and without an Exodus file nothing is left, for all meshes; finding: the seven arrays of the Exodus file |
| C137 | `ensure_sharp_edge_spheres_are_Delaunay`, `impose_interior_seeds`, `load_spheres_csv` | every array is freed once, no growing array is written behind its end, and only the arrays of the seeds and of the points stay, for all spheres and points |
| C138 | `MeshingVoroCrust::generate_interior_seeds` with all functions it calls, and the mesh after it | on one heap: every array is freed once, no growing array is written behind its end, and exactly the lost blocks are counted, for all runs; findings of C134, C135 and C136 together |
| C65 | OBJ/OFF line parser with bounds-checked tokens | induction over the lines |
| C66 | orientation and normals pipeline | invariants; stale normals witness |
| C67 | bounding box and scaling | fold invariants |
| C68 | sampled directions | algebra of the normalisation |
| C69 | darts from the pool | convexity through the decoding loop |
| C70 | in-place Cholesky | invariants over the columns, algebra |
| C72 | imposed seeds | tree queries complete for Lipschitz radii |
| C73 | moved monitoring points | from C57, for closest seeds outside the spheres; counterexample |
| C74 | sweeps of the mesher | sum of sizes decreases, invariants |
| C75 | one round of the front | neighbour search complete for Lipschitz radii |
| C76 | trimming the cell polytope | invariant of the recursion (visited, deleted), no cut of one edge, ring of new corners |
| C71 | spokes through radical hyperplanes | orthonormal basis invariant, span argument |

## Findings: where the code does not meet the stated property

Each of these is a theorem with suffix `_false`, `_undefined` or `_bug` and a
concrete witness.

* C01: a growable list created with capacity 0 is written out of bounds on the
  first append (`C01_zero_capacity_undefined`).
* C04/C05/C06: dimension 0, a rebuild over no points, and the unguarded closest
  queries on an empty tree are undefined behaviour
  (`C04_dim_zero_undefined`, `C05_empty_undefined`, `C06_empty_tree_undefined`).
* C07: with rounding, a point that ties with its ancestor in the split
  coordinate can be pruned although its computed distance beats the bound
  (`C07_rounding_tie_false`).  The witness uses a one-digit rounding; in IEEE
  double the same happens for `x = 1`, both points at `1 - 2^-53`, bound
  `2^-53 (1 + 2^-10)`.
* C09: the in-sphere answer depends on the insertion order for points in the
  tolerance shell (`C09_in_sphere_tree_dependent_false`).
* C11: re-enumerating an empty tree reads the root of nothing.
* C13: a configuration line with a value key and fewer than three words, and a
  file without a file name, are undefined behaviour, never a reported error.
* C16/C65: a blank or short data line in a seeds file and a malformed vertex or
  face line in an OBJ file are undefined behaviour.
* C17: when no two points are welded the function returns before it looks at the
  faces, so degenerate input faces stay (`C17_degenerate_kept_false`).
* C19: a corner index that is not a point is an out-of-bounds write.
* C20/C21: a face with a repeated corner makes the count of an edge differ from
  the number of faces listed, and can hide an open edge.
* C22: an open edge between edge and corner spheres is accepted.
* C23: on an orientable connected surface the propagation can end with
  neighbouring faces that disagree; one flag is read uninitialised; a face with
  a repeated corner makes it read an uninitialised face index.
* C66: face normals are computed before the faces are re-oriented and are stale
  afterwards.
* C67: without points an uninitialised index is read.
* C27: with a slope below one half the neighbourhood-limited pass never compares
  spheres further apart than twice the larger radius and leaves violations
  (`C27_distant_pair_false`); with no spheres the sort range underflows.
* C68: the generator can return 0, and then a sampled direction is NaN
  (`C68_zero_draw_undefined`).
* C43: for a triangle without area the query point itself is returned, with
  distance 0 (`C43_degenerate_false`); the theorem
  covers triangles with area.
* C40: a seed set without a single graph connection, and an empty seed set, make
  the colouring read a null pointer (`C40_no_connection_undefined`,
  `C40_no_seeds_undefined`).
* C41: the merge table keeps one parent per region, so a chain of contacts can
  be lost: contacts (2,3) then (1,3) leave 2 apart (`C41_chain_lost_false`).
* C71: no spheres, or more than dimension + 1, is undefined behaviour
  (`C71_count_undefined`).
* C39: sphere centres closer than 1e-5 can pass every test and still give seeds
  that are not on their spheres (`C39_close_centres_false`); a random direction
  perpendicular to the centres makes the power vertex fail, the return value is
  ignored, and an uninitialised point is read
  (`C39_unlucky_direction_undefined`).
* C48: `num_valid_seeds++` in the parallel loop is not atomic; a lost update makes
  the new arrays too small (`C48_lost_update_false`).
* C49: the inner loop of the activation stops before the preceding seed, so two
  consecutive seeds of the shuffled front are both active at any distance
  (`C49_neighbours_active_false`), and one round can put two new seeds at the same
  point (`C49_coincident_seeds_false`); a front without seeds is written out of
  bounds (`C49_empty_front_undefined`).
* C50: the statement was first written as "keep all earlier seeds unchanged"; the
  Lipschitz pass shrinks sizes by design, so it now says never enlarged.
* C104 and C102 speak of different seeds.  The seeds of a VoroCrust run are never in
  general position: the centre of a sphere is equally far from all seeds on it, at
  least six.  C102 and C103 therefore do not apply to the surface seeds as such.
  C105 does: it allows any number of cells at a vertex, up to the step limit below.
  Its cells have several corners at one place (one per choice of three walls);
  `Props/LimitCell.lean` to `Props/LimitExact.lean` describe them as limits of exact cells.
  C106 joins C104 and C105.
* C105: three conditions that the code does not check are hypotheses.  `VertexGap`: a
  seed is nearest to a vertex or at least 1e-10 farther than the nearest (the owner of
  a corner is the first seed within 1e-10).  `SearchClear`: no cell reaches the search
  sphere within 1e-10.  If twice the distance of the farthest corner is in
  [r, r + 1e-10), the search is accepted although a seed nearest to that corner may be
  missing from the local list, the owner of the corner may differ between cells and
  the corner gets two vertices in the mesh.  `FewNearest`: at most 102 seeds are
  nearest to one point; the walk round a face gives up after 100 steps per vertex
  found, which a face with many corners at one place could reach.
* C104: `NoGrazing` (no sphere comes within 1e-10 of a common point of three others
  without containing it) is not checked by the code.  The seed search only rejects points strictly
  inside a fourth sphere, and identifies seeds within 1e-10 of each other, so without it
  a seed could be given the partner of another triple.
* C51: for seeds in general position (`GeneralPos`) both inclusions are proved
  (`C51_generic_partial`): every cut is exact (C101), so the loop over the corners
  ends and leaves the Voronoi cell.  `C51_gap_partial` weakens general position to
  `GapPos`: a point where three of the planes cross is on or inside a bisector, or
  more than 1e-10 beyond it.  Four or more bisectors may share a corner.  The proof
  runs the trim in lockstep with trims of simple polytopes whose walls are pushed
  outwards (`Props/TrimLimit.lean`, `Props/WeakShape.lean`).  `C51_grid` derives
  `GapPos` for seeds with integer coordinates, so cubic lattices are covered.
  Without gaps (a corner beyond a bisector by a positive amount of at most 1e-10)
  only one inclusion is proved; the polytope need not be convex then.
* C52: a seed set with all seeds at one place, or a sizing of 0, makes the cell
  construction double its radius for ever (`C52_single_seed_false`,
  `C52_zero_radius_false`); with a sizing of 1e-12 the initial box is accepted as
  the cell and its wall numbers are used as indices
  (`C52_tiny_radius_undefined`).  A bounded cell of seeds in general position is
  found (`C52_generic_partial`), and more generally of seeds with gaps
  (`C52_gap_partial`).
* C55: with no seed inside, the writer of the VCG file divides an integer by zero
  (`C55_no_cells_undefined`).
* C59: the query point of the parallel neighbour search is shared between the
  threads (`C59_shared_point_false`).
* C60: the loop that removes degenerate faces tests its bound before it steps back,
  so a degenerate face just before the last makes the last one go unprocessed, its
  normal a deleted array (`C60_skipped_false`, `C60_one_degenerate`); the caller
  keeps the old number of faces and releases one twice
  (`C60_release_undefined`).
* C61: an edge of three faces is listed three times (`C61_valence_three_false`); an
  edge that its two faces run through in the same direction is missing or listed
  twice (`C61_orientation_false`).
* C62: the arrays of the corner and sizing trees are allocated with the number of
  surface spheres (`C62_small_buffers_undefined`).
* C63: dimension 0 writes outside the array of indices
  (`C63_dimension_zero_undefined`).
* C64: a file opened while another is open replaces its handle, which is never
  closed (`C64_second_open_false`; `C64_all_histories` counts them); calls without a
  test of the handle pass -1 to the library (`C64_no_handle_false`).
* C79: `setCoordinates` copies the coordinates into arrays of `int` and hands these
  to a function that reads doubles: values cut off and reads past the end
  (`C79_coordinates_partial`).  The class is not used by the program.
* C81: `generate_edge_spheres` queries `corner_spheres` without testing for an empty tree:
  sharp edges without a sharp corner (closed loops) are undefined (`C81_no_corner_undefined`),
  and so are edges that corner spheres cover entirely (`C81_no_sphere_undefined`).  The spheres
  near a dart are looked up with the radius of the previous sphere, and only from the third sphere
  on, so the limits taken from them hold only through the later Lipschitz pass.  `R_MIN`
  ("Minimum Sphere Radius") is used as tolerance only (`C81_minimum_radius_false`).
* C82: `sample_active_pool` looks up the spheres near a dart with the radius of the previous
  accepted dart of the same thread, so the limits they set can be missed, and a new sphere can
  cover old centres (`C82_stale_radius_bug`); with two threads this radius can be read before it
  is written, even if the threads run one after the other (`C82_threads_undefined`).  A surface
  inside the edge and corner spheres, or without faces, is undefined
  (`C82_no_sphere_undefined`, `C82_no_faces_undefined`).  `R_MIN` is no minimum
  (`C82_minimum_radius_false`), and a surface inside one sphere is accepted without any seed
  (`C82_some_seed_false`).
* C83: the pass over narrow regions takes the corner `faces[f][2]` twice: every face becomes a
  segment, its normal is zero, every point is its own projection, and nothing is ever shrunk
  (`C83_narrow_regions_partial`, `C83_narrow_regions_false`).
* C84: `color_surface_seeds` walks one fan of triangles around a sphere and connects all seeds
  with equal marks, including mark 0 of seeds not reached.  Where two fans meet in one sphere
  both seeds of a pair keep mark 0 and are connected: inside and outside get the same region
  (`C84_pinch_false`).
* C85: the sheets at an edge sphere are followed from one neighbouring edge or corner sphere until
  the next edge or corner sphere.  Next to a corner, a triangle of the edge sphere, the corner sphere
  and the first sphere of another edge at the corner is not reached if the sheets are followed from the other
  side; its seeds keep the mark 0, and equal marks are connected, so that the two sides of the
  surface are merged (`C85_feature_triangle_bug`, `C85_leak_bug`).  An edge sphere without edge or
  corner spheres among its neighbours reads `jsphere[0]` of an array of length 0
  (`C85_no_neighbor_undefined`).
* C86: within 1e-10 of an axis, points on the wrong side of it are treated like points on the right
  side, so that the order of angles can be wrong (`C86_tolerance_false`).
* C87: when the search for the next edge sphere finds nothing it returns the number of spheres, but the
  caller compares with `SIZE_MAX`; `old_index` is read outside its array whenever there is a single edge
  sphere (`C87_single_edge_sphere_undefined`) or none on the other side, as at both ends of a sharp edge
  (`C87_nothing_ahead_undefined`). New seeds are checked against surface spheres only and can lie inside
  corner spheres (`C87_inside_corner_false`).
* C88: seeds closer than about 1e-8 never cut a spoke (`C88_small_scale_false`).
* C89: asking for more neighbours than there are seeds never ends (`C89_too_many_wanted_never_ends`).
* C90: a file of points (the sizing file) with an empty line after the header is undefined behaviour: the test for no tokens never holds (`C90_blank_line_undefined`); numbers are written with 16 digits, which two doubles can share (`C90_digits_false`); if the first point has attributes and another has a different number of them, the written file cannot be read (`C90_tree_file`).
* C91: `get_tree_point_attrib(p, count - 1)` reads one past the end of the attributes (`C91_last_index_undefined`).
* C93: closed loops of sharp edges without a sharp corner (a smooth rim, a flat disk with many sides) make the
  sampling undefined: `generate_edge_spheres` queries the empty tree of corner spheres (`C93_loops_undefined`, `octagon_undefined`).
* C94: with `R_MIN` other than zero `detect_features_generate_point_clouds` keeps the normals in a local variable; `_face_normal`
  stays null and `_num_faces` unwritten, and both are read later (`C94_minimum_radius_bug`, `C94_destructor`).
* C95: with dependent columns `LS_QR_Solver` does not give a least-squares solution (`C95_dependent_columns_false`); with more unknowns than equations it reads unwritten memory (`C95_wide_undefined`).
* C97: a row without entries is a null pointer, which `Cholesky_factorization_add_row` reads (`C97_empty_row_undefined`).
* C58: the shuffle of monitoring points starts at the number of surface seeds, so it also picks seeds added on sharp edges, inside corner spheres (`C58_on_sharp_edge_false`).
* C98: `num_imposed_seeds_added = num_seeds - num_surface_seeds` (MeshingVoroCrust.cpp) also counts the k seeds added on sharp edges; the first k seeds of the front are never tested against the imposed spheres (`C98_not_removed_false`).
* C99: the basis of MeshingVoroSpokes has no constant function and, with Chebyshev polynomials (the only basis the code can select), its even functions are not zero at the seed; from order 2 on the surrogate neither keeps the values at the seeds nor reproduces quadratic functions (`C99_default_basis_false`).
* C100: surface files are written with 16 digits, one less than a double needs. Two points that welding keeps (slightly more than 1e-8 apart) can be written as two that are nearer than 1e-8, so that reading `clean.obj` or `model_combined.obj` merges them (`C100_digits_false`).
* C109: if the sampling ends without seeds (one sphere covering the model, as for the octahedron of C93), `color_surface_seeds` asks for the attributes of the closest seed of an empty tree and reads through a null pointer (`C109_no_seeds_undefined`, `C109_octahedron_undefined`).
* C96: `get_Voronoi_vertex` answers yes for flat sets of seeds, with a point that is not equidistant (`C96_flat_false`).
* C73: a monitoring point can be moved to a seed that the same call removes
  (`C73_monitoring_point_removed_false`).
* C74: for L < 1/2 the pass does not compare seeds further apart than twice the
  size (`C74_distant_pair_false`).
* C114: the saved PLY file declares the number of corners of a face as uchar, so a face with 256 or more corners makes it invalid (`C114_many_corners_false`).
* C115: from dimension 42 on the factorial in `spherical_integration_constant` does not fit in 64 bits (`C115_dimension_42_false`); the search for the sample never ends on a spoke with integral zero
  (`C115_search_never_ends`).
* C116: a file of monitoring points has no column of regions; given as a file of seeds it is undefined behaviour (`C116_points_as_seeds_undefined`).
* C117: `set_sampling_function` fills the table from `_cell_weight[_num_seeds]`, which was never set (`C117_set_sampling_undefined`); with order zero the table is not a sum and cells are never drawn
  (`C117_order_zero_false`); `suggest_new_sample` changes a weight but not the table (`C117_stale_table_false`); after `add_samples` there are no weights (`C117_add_samples_undefined`).
* C118: `evaluate_vwn` reads the first entry of an empty list of neighbours if all spokes point away from the seeds (`C118_no_neighbor_undefined`); at a seed the estimate of the error is not set
  (`C118_at_seed`).
* C119: the Exodus file has one block for all cells, so the regions of the cells are lost (`C119_regions_lost`, `C119_regions_false`); with more than 2147483647 points the arrays of coordinates are
  too small (`C119_many_points_undefined`).
* C120: `set_block_connectivity`, `set_node_map` and the like refuse lists that are too long but hand lists that are too short to the library, which reads past their end (`C120_connectivity_partial`, `C120_maps`);
  `define_side_set` exchanges elements and sides (`C120_side_set_false`) and does not compare the lengths (`C120_side_set_undefined`); the title is copied into 81 characters without a check (`C120_title`).
* C121: in `extract_model_sharp_features` the loop that looks for the same edge in the other face reads `_faces[fj][ic]` instead of `_faces[fj][jc]`, so whether an edge between two faces of opposite
  orientation is sharp depends on the corner their lists begin with (`C121_rotation_false`); with a consistent orientation the result is right (`C121_oriented_partial`).
* C122: the smallest angle that `process_model` reports does not take the direction into account, so a flat pair of faces can give zero degrees (`C122_min_angle_false`).
* C123: in the contour plots a side whose first corner is above the upper level of a band by less than 1e-10 and which falls through the whole band only gets the crossing of the upper level, so that band is missing
  on it (`C123_side_false`); values outside the first and last level are left white (`C123_white`).
* C124: `plot_function_slice` reads `fx[function_index]` without the test it makes for the other three corners, so the index that means the error estimate in `plot_function` is undefined (`C124_slice_index`);
  `plot_function` samples `_num_dim` numbers into an array of two (`C124_plot_dimensions`).
* C125: `MeshingPolyMesh::valid_surface_mesh` sets `edge_sphere_shrunk` where it shrinks a corner sphere and never sets `corner_sphere_shrunk` (`C125_corner_flag_false`); it returns `false` for every mesh
  (`C125_returned_false`), and the branch that should tell a mesh with holes from a watertight one is `if (true)`.
* C126: `while (CJ[irow][pos] <= irow && pos < 2 + nnz) pos++` (MeshingLinearSolver.cpp:302) reads the index before it tests the position. In a row that fills its array and has no entry after the diagonal it reads past the end of the
  array (`C126_scan_undefined`); in any other row it is right (`C126_scan_partial`).
* C128: `MeshingPolyMesh::generate_surface_mesh` clears its seeds where it found slivers, calls itself, and then goes on with the seeds that were cleared: `valid_surface_mesh` is called with no triangles and writes `clean_mesh.obj`
  over the mesh of the inner call (`C128_file_false`). The inner calls use the constant 0.25 in place of the one given (`C128_constant_false`), and nothing bounds their number (`C128_never_ends`).
* C129: `MeshingSmartTree::clear_memory` deletes the random samplers and keeps the pointers to them, so a tree that has samplers and is cleared by a call deletes them again in its destructor (`C129_samplers_undefined`); the trees the
  program clears have none. The constructor that takes an array sets the capacity to the number of points and makes no arrays of normals and attributes, and the next `add_tree_point` writes past the array of points and to a null array
  (`C129_array_undefined`).
* C130: in `MeshingSmartTree::get_3d_Voronoi_face` `joint_neighbor_seed` is declared without a value in every round (1553), and `trim_spoke` sets it only where it stops the spoke. The test of a corner reads the point with this index
  (1792) without a look at the length of the spoke. A spoke to a corner leaves the four seeds of the corner out, so for a triangle with no further seed behind its first corner, as in a tree with five points, the index has no value
  (`C130_unset_undefined`, `C130_triangle_undefined`).
* C131: `MeshingVoroSpokes::add_samples` writes `_f[isample]` for all samples without making the arrays grow (231-236): with more samples than the budget it writes past them, and with as many the next `add_new_seed` does, since this
  grows the arrays only after a seed (`C131_full_undefined`). A second call overwrites the pointers of the first, which are lost (`C131_twice_lost`). It makes no `_cell_samples` for its cells, which `suggest_new_sample` reads (219,
  `C131_suggest_undefined`). `clear_memory` deletes the random samplers but keeps the pointers in `_rsamplers` (183-187), so the destructor after a call of it deletes them again (`C131_clear_undefined`); and neither it nor
  `init_vorospokes` sets `_num_seeds` to zero, so a surrogate that is set up again writes past its arrays with the first seed (`C131_again_undefined`).
* C133: whenever the feature detection with a minimum radius removes a face, `execute` frees a block twice at its end, whichever face it is (`C133_removed_undefined`, for every surface; C60 has an instance of it).
* C134: `execute_vc` frees the array of the sharp edges and the one of the corners only if there are any, although they are always allocated (MeshingVoroCrust.cpp:286-287); `points_in_sphere` is not freed (483), one array for each imposed point at the place of a seed; and the arrays of the seeds are freed only with a mesh, so a run that stops at the seeds loses them (`C134_lost`; `C134_run` says exactly what is left).
* C135: `generate_interior_seeds` does not free `inactive_front_seeds` (MeshingVoronoiMesher.cpp:1081) when it ends (1433-1436): every run loses one array of length 0 (`C135_lost`); all else is freed once (`C135_seeding_partial`).
* C136: `save_exodus_file` frees none of its seven arrays (MeshingVoronoiMesher.cpp:3162-3196): every mesh written as an Exodus file loses them (`C136_exodus_lost`); without it all memory is freed (`C136_explicit_partial`, `C136_file_partial`).
* C138: from the seeds to the mesh a run loses one array of the front, `points_in_sphere` for each imposed point that is a seed, the seven arrays of the Exodus file if one is written, and the three arrays of the seeds if no mesh is asked for, and nothing else (`C138_late_partial`, `C138_lost`).

## What is modelled

| model file | code |
|------------|------|
| Memory | MeshingMemoryHandler add_entry, quicksorts |
| KdTree, KdOrder, KdQuery | MeshingSmartTree insertion, balanced build, enumeration, closest and in-sphere queries |
| Graph | graph connections of MeshingSmartTree |
| Text | tokens, option file, command line, seeds CSV, OBJ/OFF reading |
| Weld, Mesh, Orient, Adjust | MeshingPolyMesh and the driver: welding, compaction, incidence, water-tightness, orientation, normals, bounding box |
| Spheres, Corners | coverage, Lipschitz passes, overlaps, slivers, corner spheres |
| Random, Pool | random numbers, samples, table look-up, active pool and its parallel refinement |
| Sparse | sparse vectors, Cholesky factorisation, substitution and added rows; not the removal of rows and the rank-one update |
| Geometry, PowerVertex | projections, normals, power vertices |
| Seeds | generate_surface_seeds, merging of the two seed trees |
| Interior | impose_interior_seeds, the mesher's impose_lipschitz_continuity, monitoring points |
| Front | generate_interior_seeds: activation, darts, rounds |
| Cell | get_3d_Voronoi_cell, construct_initial_polytope, trim_vertex |
| VoroMesh | generate_3d_voronoi_mesh: corners of all cells, welding, vertex numbers, faces; the cells are built one after the other |
| Vcg | save_vcg_file_pflotran: the lines of the two sections, exact arithmetic, without the console summary |
| FaceClean | removal of degenerate faces, with the pointers of the faces |
| Sharp | sharp edges and corners of a clean model (detect_features_generate_point_clouds_clean), the angle tests as parameters; the point clouds are in Clouds |
| Basis | MeshingVoroSpokes: basis functions and their enumeration, over the reals and unbounded `size_t` |
| EdgeSpheres | generate_edge_spheres: darts, radii, Lipschitz pass, narrow regions; distances to the point clouds and prescribed sizes are parameters; the console and CSV output and the smallest sphere are left out |
| SurfaceSpheres | generate_surface_spheres and sample_active_pool: darts, radii, pool refinement, narrow regions, Lipschitz pass, seeds, validation; threads take their turn in order within each parallel region (with OpenMP the second region of sample_active_pool has a data race, not modelled); distances to the point clouds, prescribed sizes and the distances of `resolve_sliver` are parameters |
| Fans | color_surface_seeds: marks around surface and edge spheres, connections; C84 is about models without sharp features, C85 about those with; the constant `PI` is taken as the real number |
| EdgeDelaunay | ensure_sharp_edge_spheres_are_Delaunay; random draws are inputs; computing with NaN is undefined behaviour (the next array access is) |
| Spokes | kd_tree_trim_spoke, trim_spoke, get_Voronoi_neighbors; exact arithmetic, `DBL_MAX` is infinite; directions drawn are inputs; involved seeds are seed numbers |
| TreeFile | add_tree_point (records), get/set_tree_point_attrib, save_tree_csv, load_tree_csv; search links and bounding box left out; number formats arbitrary |
| Ply | save_Voronoi_tessellation with and without a plane; printing of numbers a parameter; opening the file left out |
| SpokeIntegral | spherical_integration_constant, integrate_vps; the function along the spokes (evaluate_vps) and the spokes themselves are inputs; exact arithmetic, `PI` is the real number; the choice of the spoke is the table look-up of C35 |
| SphereFile | save_spheres_csv; printing of numbers a parameter; opening the file left out |
| Adaptive | the arrays of weights and sums of MeshingVoroSpokes in adaptive mode; values of the integration and neighbours are inputs; unset entries are undefined behaviour; threads in order |
| Vwn | evaluate_vwn and evaluate_vps with estimate, one function at a time, exact reals; `_desired_orders` left out |
| ExodusFile | save_exodus_file with what the library reads from each array; the writer class's title, connectivity, maps, node and side sets, one function at a time. The library is modelled as reading as many entries as the numbers given to it say; the NetCDF file itself is not modelled |
| Features | sharp edges, corners, edges of points, `sharp_edge` and the smallest cosine of an input mesh, one function at a time; the angle tests are parameters with the tests of the code as instances; the sort of the corners left out (they are found in order). The executable does not call this constructor |
| Contour | the contour plots in exact arithmetic from given values at the corners of the squares; the four copies of the code for a side are one function; the printing of the numbers to the file, the sampling of the extremes and the plotted points are left out. No other code of the repository calls these two functions |
| RepairMesh | the check of a surface mesh that `generate_surface_mesh` of MeshingPolyMesh calls, with the radii as a function of the number of the sphere and the distances given. The executable uses the other version (C22) |
| RankOne | the update of a Cholesky factor by a vector and the removal of a row. The rows are sorted lists, as `set_sparse_vector_entry` keeps them (C45); exact arithmetic, and the theorems take the tolerance below which entries are dropped to drop zeros only. No code in the repository calls these functions |
| TreeCell | the construction of a Voronoi cell from its faces in the tree. The construction of one face (`get_3d_Voronoi_face`) and the search in a sphere are given as functions; the arrays that grow are lists. No code in the repository calls this function. In a tree with one point the code reads past the points, which is `none` here |
| MeshGen | the generation of a surface mesh in MeshingPolyMesh. Its loops are those of `generate_surface_seeds` (Seeds) and are given as a function here; what is modelled is what it does with their result. No code in the repository calls this function |
| TreeMemory | the blocks a tree allocates and frees. The temporary arrays of the balancing are freed where they are made, and `_marked` and the graph are not modelled; a block is a number, and freeing one that is not allocated is undefined |
| TreeFace | the loop of the construction of a face in the tree. The answers of `trim_spoke`, `get_Voronoi_vertex`, `get_point_angle` and `quicksort` are a parameter; the choice of the bases and of the point on the face before the loop, and the area and height after it, are not modelled. The loop need not end for every choice of the answers, and the fuel stands for its rounds. No code in the repository calls this function except `get_3d_Voronoi_cell` |
| SpokesMemory | the blocks that a surrogate allocates and frees. What is in them is not modelled; the cells whose models are built by a call, and for which functions there are coefficients, are parameters. The tree of the seeds is one block; the blocks that a call allocates and frees itself are left out. `set_sampling_function` allocates nothing and is left out |
| PoolMemory | the blocks of the active pool and of the pools of the threads, and the reads of the codes. Which entries are covered is a parameter, of which only the number of children that each thread makes counts. The threads run one after another: each has its own blocks, and the allocator is taken to be safe for threads. Arrays that a function allocates and frees itself are left out, and the three arrays of a pool grow at once where `add_entry` does it one after another |
| SurfaceMemory | the blocks of the points and faces of the input, and the loop that removes degenerate faces with its array. A file is the number of its points and faces; how many points the welding leaves and which faces are degenerate are parameters, and so is the face that the feature detection removes, of which there is at most one; nothing else between the reading and the end of `execute` touches these blocks. The tree of the welding is left out; a failed allocation is not modelled |
| RunMemory | the trees, the sampler, the lists of features and the arrays of spheres and seeds of a run, each one block named by its variable, in the order of the code. How many features, spheres and points there are, how often the seeds are replaced and which files are asked for are parameters. What is inside a tree or the sampler, and what a function allocates and frees itself, is left out |
| FrontMemory | the arrays that the loop of the interior seeding allocates, hands on and frees, with the arrays of neighbours of each active seed and their growth. How many active seeds, neighbours and rounds there are and which kind each round is are parameters. The trees of the spheres and the samplers, which are allocated before and freed after, and what another called function allocates and frees itself, are left out |
| MeshMemory | the arrays of the cells, of the mesh and of the step that writes it, with the growth of the arrays of neighbours and corners. The numbers of radii, neighbours, corners and faces and the ghosts are parameters; the seeds are taken in the order of the input, not of the tree; arrays allocated or freed in a row are one step. What the Exodus library allocates and frees itself is left out |
| AddedMemory | the arrays of the two steps that add seeds before the interior ones, and of the file of the imposed points. Which spheres there are, the numbers of neighbours, and which seeds are added are parameters; the points are taken in the order of the file, not shared between threads; arrays allocated or freed in a row are one step. How large the arrays of the trees are is in C62 |
| LateMemory | the models of AddedMemory, FrontMemory and MeshMemory one after the other on one heap, with the arrays of MeshingVoroCrust::generate_interior_seeds and the trees of spheres and samplers that FrontMemory leaves out. The trees of spheres it deletes and the tree of the retrieval are in TreeMemory; the latter is one block here. Which spheres there are, the points and the rounds are parameters that are not tied to each other |
| Clouds | point clouds of detect_features_generate_point_clouds_clean, closest non-smooth point queries, sizing function |
| InteriorRun | generate_interior_seeds as a whole; the files monitoring_points.csv and seeds.csv are lists; messages and timers left out |
| Vps | get_vps_neighbors, build_vps_model(icell, num_spokes), evaluate_vps (all four) for one function; the value DBL_MAX of a singular cell and the second build_vps_model (given coefficients) left out |
| ObjFile | save_mesh_obj; the end of read_input_obj_file; the input stage of execute (one file, or several merged, welded and saved) |
| Execute | execute_vc up to the surface spheres; smooth_model false; the detection for R_MIN other than zero is a parameter, its removal of degenerate faces is left out |
| LeastSquares | LS_QR_Solver, householder, get_Voronoi_vertex; exact arithmetic, zero divided by zero is NaN and spreads; no overflow |
| Exodus | the handle of MeshingExodusFileWriter, the sizes of its coordinate arrays, the connectivity arrays of save_exodus_file; the library is a trace of calls |
| Explicit | generate_explicit_mesh and generate_mesh_from_seeds_file as one run; the numbers save_exodus_file hands to the library (rounding to float is a parameter) |
| Run | execute_vc after the sampling, and as a whole; releases of trees, messages and timers left out |
| Regions | colouring, region merging, cell face lists |

Not modelled: PLY output, the rest of the Exodus output, the rest of
VoroSpokes, the feature detection of unclean models and anything else not named above.
