import Verif.Model.TreeMemory

/-!
# Model of what `execute_vc` allocates and hands on

`MeshingVoroCrust::execute_vc` (MeshingVoroCrust.cpp:237-305) allocates trees, a sampler and lists of features, which other functions fill and free, and `generate_interior_seeds` (MeshingVoroCrust.cpp:307-615) makes arrays of them and
the arrays of the seeds, which `generate_explicit_mesh` (MeshingVoroCrust.cpp:618-757) frees.  A block is the number of the variable that holds it, so a block that is allocated twice is there twice; `none` is the freeing of a block that is
not allocated.  The tree or the sampler is one block (for what is inside see `TreeMemory`, and for the normals of the sampler C94).  What a function allocates and frees itself is left out, except where it depends on its input.
-/

namespace VoroCrust

/-- What a run depends on: the sizing function, the number of sharp edges and corners, the number of spheres and points of the sizing function, whether seeds are added on sharp edges, whether monitoring points are imposed, whether some
of them become seeds, for how many of them a seed is found at the same place, whether seeds are removed after that, how often the seeds are replaced while the interior is filled, whether monitoring points are written, and whether a file of
the mesh is asked for. -/
structure RunPlan where
  sizing : Bool
  sharpEdges : Nat
  sharpCorners : Nat
  surfaceSpheres : Nat
  edgeSpheres : Nat
  cornerSpheres : Nat
  sizingPoints : Nat
  edgeSeeds : Bool
  impose : Bool
  imposedSeeds : Bool
  hits : Nat
  invalidated : Bool
  rounds : Nat
  monitor : Bool
  output : Bool

/-- The list if the condition holds. -/
def listIf (c : Bool) (l : List Nat) : List Nat := if c then l else []

/-- `input_sizing_function` (MeshingVoroCrust.cpp:165-171). -/
def vSizing : Nat := 0
/-- The clouds (MeshingVoroCrust.cpp:248-249). -/
def vClouds : List Nat := [1, 2]
/-- The trees of spheres (MeshingVoroCrust.cpp:253-255). -/
def vSpheres : List Nat := [3, 4, 5]
/-- `surf_ext_seeds`, `surf_int_seeds` and `interface_spheres` (MeshingVoroCrust.cpp:256-260). -/
def vSurf : List Nat := [6, 7, 8]
/-- `seeds` (MeshingVoroCrust.cpp:261). -/
def vSeedTree : Nat := 9
/-- `vc_sampler` (MeshingVoroCrust.cpp:263). -/
def vSampler : Nat := 10
/-- The array `sharp_edges` (MeshingVoroCrustSampler.cpp:267, 816). -/
def vSharpEdges : Nat := 11
/-- A sharp edge (MeshingVoroCrustSampler.cpp:281, 296). -/
def vSharpEdge : Nat := 12
/-- The array `sharp_corners` (MeshingVoroCrustSampler.cpp:307, 928). -/
def vSharpCorners : Nat := 13
/-- `seed_points`, `seed_points_region_id` and `seed_points_sizing` (MeshingVoroCrust.cpp:316-318). -/
def vSeeds : List Nat := [14, 15, 16]
/-- Arrays of the surface spheres (MeshingVoroCrust.cpp:335-336). -/
def vSurfaceArrays : List Nat := [17, 18]
/-- Arrays of the edge spheres (MeshingVoroCrust.cpp:351-352). -/
def vEdgeArrays : List Nat := [19, 20]
/-- Arrays of the corner spheres (MeshingVoroCrust.cpp:367-368). -/
def vCornerArrays : List Nat := [21, 22]
/-- Arrays of the sizing function (MeshingVoroCrust.cpp:384-385). -/
def vSizingArrays : List Nat := [23, 24]
/-- `imposed_seeds` (MeshingVoroCrust.cpp:424, MeshingVoronoiMesher.cpp:2596). -/
def vImposed : Nat := 25
/-- The tree with `seeds_`, `x` and `valid_seed` (MeshingVoroCrust.cpp:457-469). -/
def vRetrieve : List Nat := [26, 27, 28]
/-- `points_in_sphere` (MeshingVoroCrust.cpp:483). -/
def vInSphere : Nat := 29
/-- `seed_new_index` and `mon_pts` (MeshingVoroCrust.cpp:584, 598). -/
def vMonitor : List Nat := [30, 31]

/-- The start of `execute_vc`, up to the feature detection (MeshingVoroCrust.cpp:248-272): what is allocated, and what is freed after it. -/
def stepDetect (p : RunPlan) : List Nat × List Nat :=
  (vClouds ++ vSpheres ++ vSurf ++ [vSeedTree, vSampler, vSharpEdges, vSharpCorners] ++ List.replicate p.sharpEdges vSharpEdge, [])

/-- After the colouring (MeshingVoroCrust.cpp:282-289). -/
def stepColour (p : RunPlan) : List Nat × List Nat :=
  ([], vSurf ++ vClouds ++ List.replicate p.sharpEdges vSharpEdge ++ listIf (decide (p.sharpEdges > 0)) [vSharpEdges] ++ listIf (decide (p.sharpCorners > 0)) [vSharpCorners] ++ [vSampler])

/-- The arrays made of the trees (MeshingVoroCrust.cpp:316-393); the deletion of a null tree does nothing. -/
def stepArrays (p : RunPlan) : List Nat × List Nat :=
  (vSeeds ++ listIf (decide (p.surfaceSpheres > 0)) vSurfaceArrays ++ listIf (decide (p.edgeSpheres > 0)) vEdgeArrays ++ listIf (decide (p.cornerSpheres > 0)) vCornerArrays ++
    listIf (p.sizing && decide (p.sizingPoints > 0)) vSizingArrays, [vSeedTree] ++ vSpheres ++ listIf p.sizing [vSizing])

/-- The seeds are replaced (MeshingVoronoiMesher.cpp:392-407, 774-803, 1401-1417, 1484-1527; MeshingVoroCrust.cpp:522-537). -/
def stepReplace : List Nat × List Nat := (vSeeds, vSeeds)

/-- The monitoring points are read (MeshingVoroCrust.cpp:424). -/
def stepImpose (p : RunPlan) : List Nat × List Nat := (listIf p.impose [vImposed], [])

/-- The retrieval of the closest seeds, before seeds are removed (MeshingVoroCrust.cpp:457-517). -/
def stepRetrieve (p : RunPlan) : List Nat × List Nat := (listIf p.impose (vRetrieve ++ List.replicate p.hits vInSphere), [])

/-- The end of the retrieval (MeshingVoroCrust.cpp:544-551), where the tree goes out of scope and frees `seeds_`. -/
def stepRetrieved (p : RunPlan) : List Nat × List Nat := ([], listIf p.impose (vImposed :: vRetrieve))

/-- The arrays of the spheres are freed (MeshingVoroCrust.cpp:559-574). -/
def stepFreeArrays (p : RunPlan) : List Nat × List Nat :=
  ([], listIf (decide (p.surfaceSpheres > 0)) vSurfaceArrays ++ listIf (decide (p.edgeSpheres > 0)) vEdgeArrays ++ listIf (decide (p.cornerSpheres > 0)) vCornerArrays ++
    listIf (p.sizing && decide (p.sizingPoints > 0)) vSizingArrays)

/-- Monitoring points are written (MeshingVoroCrust.cpp:576-612), not if some were imposed (MeshingVoroCrust.cpp:433). -/
def stepMonitor (p : RunPlan) : List Nat × List Nat := (listIf (p.monitor && !p.impose) vMonitor, listIf (p.monitor && !p.impose) vMonitor)

/-- The mesh is made, and the seeds are freed with it (MeshingVoroCrust.cpp:299-302, 755). -/
def stepMesh (p : RunPlan) : List Nat × List Nat := ([], listIf p.output vSeeds)

/-- The steps of a run in their order. -/
def runSteps (p : RunPlan) : List (List Nat × List Nat) :=
  [stepDetect p, stepColour p, stepArrays p] ++ (if p.edgeSeeds then [stepReplace] else []) ++ [stepImpose p] ++ (if p.impose && p.imposedSeeds then [stepReplace] else []) ++ List.replicate p.rounds stepReplace ++
    [stepRetrieve p] ++ (if p.impose && p.invalidated then [stepReplace] else []) ++ [stepRetrieved p, stepFreeArrays p, stepMonitor p, stepMesh p]

/-- Steps one after the other, each allocating and then freeing. -/
def runMem : List (List Nat × List Nat) → List Nat → Option (List Nat)
  | [], live => some live
  | s :: ss, live =>
    match freeBlocks s.2 (s.1 ++ live) with
    | none => none
    | some live => runMem ss live

/-- `execute_vc` (MeshingVoroCrust.cpp:237-305), called with the sizing function. -/
def runVc (p : RunPlan) (live : List Nat) : Option (List Nat) := runMem (runSteps p) (listIf p.sizing [vSizing] ++ live)

end VoroCrust
