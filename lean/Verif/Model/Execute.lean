import Verif.Model.Clouds

/-! # Model of the sampling part of `MeshingVoroCrust::execute_vc`

MeshingVoroCrust.cpp:238-279: detection of the sharp features and the point clouds, corner spheres, edge spheres, surface spheres and their seeds.  `smooth_model` is always false.  What
`detect_features_generate_point_clouds` (MeshingVoroCrustSampler.cpp:549-1075) computes is a parameter; only that it leaves the members `_face_normal` and `_num_faces` alone is
modelled.  `none` is undefined behaviour, `some none` means that the fuel of a `while (true)` loop is used up.
-/

namespace VoroCrust

open Classical

/-- The inputs of `execute_vc`: the surface, the sizing function, `R_MIN`, `R_MAX`, the Lipschitz constant, the cosine of the threshold angle, the number of threads, the
re-balancing policy, the random numbers, what `resolve_sliver` measures, its unwritten output and the result of the detection for `R_MIN ≠ 0`. -/
structure VcInput where
  num : Nat
  point : Nat → Nat → ℝ
  faces : List (List Nat)
  size : Option STree
  rmin : ℝ
  rmax : ℝ
  L : ℝ
  th : ℝ
  T : Nat
  rb : Nat → Nat → Bool
  U : Nat → ℝ
  Ut : Nat → Nat → ℝ
  dart : Nat → Nat → Nat → Nat → ℝ
  hm : SphereSet → List Nat → Nat × Nat × Nat → Nat → Option ℝ
  r0 : ℝ
  other : Option (List (Nat × Nat) × List Nat × Cloud × Cloud)

/-- The surface as the pools see it. -/
def VcInput.surface (I : VcInput) : PoolSurface (Nat → ℝ) := ⟨I.num, I.point, I.faces.length, fun f i => (I.faces.getD f []).getD i 0⟩

/-- The sharp edges as the pools see them. -/
def VcInput.edges (I : VcInput) (es : List (Nat × Nat)) : PoolSurface (Nat → ℝ) :=
  ⟨I.num, I.point, es.length, fun e i => if i = 0 then (es.getD e (0, 0)).1 else (es.getD e (0, 0)).2⟩

/-- The corners of a face. -/
def VcInput.tri (I : VcInput) (f : Nat) : Fin 3 → V3 := fun k => toV3 (I.point (I.surface.corner f k.val))

/-- `build_face_normals` (MeshingPolyMesh.cpp:1257-1276). -/
noncomputable def VcInput.normals (I : VcInput) : List V3 := (List.range I.faces.length).map fun f => (triNormal (I.tri f)).1

/-- What the detection leaves behind: the members `_face_normal` (`none` is the null pointer) and `_num_faces` (`none` is unwritten), the sharp edges, the sharp corners, the two
clouds. -/
structure Detected where
  normals : Option (List V3)
  numFaces : Option Nat
  edges : List (Nat × Nat)
  corners : List Nat
  lines : Cloud
  cloud : Cloud

/-- `detect_features_generate_point_clouds_clean` (MeshingVoroCrustSampler.cpp:247-547) with `me` points on the sharp edges and `mf` on the surface; they use the random numbers in
turn. -/
noncomputable def detectClean (I : VcInput) (me mf : Nat) : Option Detected :=
  match sharpEdges I.num I.faces (dihedralSharp I.th fun f => (I.normals.getD f fun _ => 0)) with
  | none => none
  | some es =>
    match sharpCorners I.num es (bendSharp I.th fun p => toV3 (I.point p)) with
    | none => none
    | some cs =>
      match (if es.length > 0 then edgeCloud I.rb (I.edges es) I.U me else some Cloud.none) with
      | none => none
      | some lines =>
        match faceCloud I.rb I.surface I.normals (fun k => I.U (2 * (if es.length > 0 then me else 0) + k)) mf with
        | none => none
        | some cloud => some ⟨some I.normals, some I.faces.length, es, cs, lines, cloud⟩

/-- The choice of the detection (MeshingVoroCrust.cpp:267-272).  The constructor has set `_face_normal` to null and left `_num_faces` alone (MeshingVoroCrustSampler.cpp:43-75);
`detect_features_generate_point_clouds` keeps the normals in a local variable (MeshingVoroCrustSampler.cpp:549-1075). -/
noncomputable def detect (I : VcInput) : Option Detected :=
  if I.rmin = 0 then detectClean I 100000 500000
  else
    match I.other with
    | none => none
    | some (es, cs, lines, cloud) => some ⟨none, none, es, cs, lines, cloud⟩

/-- The distances used for corner and edge spheres (MeshingVoroCrustSampler.cpp:1104-1123, 1222-1263). -/
noncomputable def VcInput.queries (I : VcInput) (D : Detected) : CornerQueries := ⟨D.cloud.plane I.rmin I.th, D.lines.line I.rmin I.th, sizeAt I.size⟩

/-- The points of the sharp corners (MeshingVoroCrustSampler.cpp:1093-1095). -/
def VcInput.cornerPoints (I : VcInput) : List Nat → Option (List (Nat → ℝ))
  | [] => some []
  | p :: ps =>
    if p < I.num then
      match I.cornerPoints ps with
      | none => none
      | some l => some (I.point p :: l)
    else none

/-- A tree without spheres. -/
noncomputable def emptyTree : STree := (SmartTree.empty (fun _ _ => (0 : ℝ)) id id).asSTree

/-- Corner spheres (MeshingVoroCrust.cpp:274-275). -/
noncomputable def cornerStage (I : VcInput) (D : Detected) : Option STree :=
  if D.corners.length > 0 then
    match I.cornerPoints D.corners with
    | none => none
    | some l =>
      match cornerSpheres I.rb (I.queries D) I.rmin I.rmax I.L l with
      | none => none
      | some (P, ln) => some ⟨P, ln⟩
  else some emptyTree

/-- The setting of the edge spheres: `_r_min_edges` is zero (MeshingVoroCrustSampler.cpp:49) and the ratio one half. -/
noncomputable def VcInput.edgeSetup (I : VcInput) (D : Detected) (C : STree) (U : Nat → ℝ) : EdgeSetup where
  S := I.edges D.edges
  corner := C
  q := I.queries D
  tol := I.rmin
  th := I.th
  rmax := I.rmax
  rmin := 0
  L := I.L
  ratio := 0.5
  rb := I.rb
  U := U

/-- No edge spheres. -/
noncomputable def EdgeRun.none : EdgeRun := ⟨SmartTree.empty (fun _ _ => 0) id id, [], .none, 0⟩

/-- Edge spheres (MeshingVoroCrust.cpp:276-277); their darts use the random numbers that follow the ones of the clouds (MeshingVoroCrustSampler.cpp:2436, 2461). -/
noncomputable def edgeStage (I : VcInput) (D : Detected) (C : STree) (mps fuel : Nat) : Option (Option EdgeRun) :=
  if D.edges.length > 0 then edgeSpheres (I.edgeSetup D C fun k => I.U (2 * 100000 + 3 * 500000 + k)) mps fuel else some (some EdgeRun.none)

/-- The distance from a point of face `f` to the cloud: `_face_normal[f]` is read (MeshingVoroCrustSampler.cpp:2682-2685). -/
noncomputable def faceDistance (I : VcInput) (D : Detected) (x : Nat → ℝ) (f : Nat) : Option (WithTop ℝ) :=
  match D.normals with
  | none => none
  | some N =>
    match N[f]? with
    | none => none
    | some w => D.cloud.face I.th x w

/-- The distance to the sharp edges, only with a cloud (MeshingVoroCrustSampler.cpp:2697-2702). -/
noncomputable def lineDistance (I : VcInput) (D : Detected) (x : Nat → ℝ) : Option (WithTop ℝ) :=
  if D.lines.tree.num > 0 then D.lines.line I.rmin I.th x else some ⊤

/-- The setting of the surface spheres: `_r_min_surface` is zero (MeshingVoroCrustSampler.cpp:49) and the ratio 0.4. -/
noncomputable def VcInput.surfSetup (I : VcInput) (D : Detected) (C : STree) (R : EdgeRun) : SurfSetup where
  S := I.surface
  edge := R.tree.asSTree
  corner := C
  surf := faceDistance I D
  cloud := lineDistance I D
  size := sizeAt I.size
  tol := I.rmin
  th := I.th
  rmax := I.rmax
  rmin := 0
  L := I.L
  ratio := 0.4
  T := I.T
  rb := I.rb
  U := I.Ut
  dart := I.dart
  hm := I.hm
  r0 := I.r0

/-- What the sampling part leaves for the colouring of the seeds. -/
structure Sampled where
  found : Detected
  corner : STree
  edge : EdgeRun
  surf : SurfRun
  up : SeedTree
  lo : SeedTree

/-- The sampling part of `execute_vc` (MeshingVoroCrust.cpp:261-279). -/
noncomputable def sampleModel (I : VcInput) (mps fuel : Nat) : Option (Option Sampled) :=
  match detect I with
  | none => none
  | some D =>
    match cornerStage I D with
    | none => none
    | some C =>
      match edgeStage I D C mps fuel with
      | none => none
      | some none => some none
      | some (some R) =>
        match surfaceSpheres (I.surfSetup D C R) mps fuel with
        | none => none
        | some none => some none
        | some (some (S, up, lo)) => some (some ⟨D, C, R, S, up, lo⟩)

/-- The destructor of the sampler (MeshingVoroCrustSampler.cpp:2335-2340): the number of arrays freed; an unwritten `_num_faces` must not be read, and with a null `_face_normal`
only no face at all may be freed. -/
def freeNormals (D : Detected) : Option Nat :=
  match D.numFaces, D.normals with
  | none, _ => none
  | some n, some N => if n ≤ N.length then some n else none
  | some n, none => if n = 0 then some 0 else none

end VoroCrust
