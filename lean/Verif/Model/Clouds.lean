import Verif.Model.SurfaceSpheres
import Verif.Model.Sharp

/-! # Model of the two point clouds of a clean model and of the distances taken from them

`detect_features_generate_point_clouds_clean` (MeshingVoroCrustSampler.cpp:414-530) and the closest-point queries with a smoothness test (MeshingSmartTree.cpp:665-696).  A cloud is
a tree of points with a direction (the normal of the face, or the tangent of the sharp edge) and the index of the face or edge for each point.  Random numbers are a stream.
`none` is undefined behaviour.
-/

namespace VoroCrust

open Classical

/-- A point cloud: `add_tree_point(4, dart, direction, attrib)` stores a point, its direction and `attrib[1]`. -/
structure Cloud where
  tree : SmartTree ℝ
  dir : List V3
  ids : List Nat

/-- A cloud without points. -/
noncomputable def Cloud.none : Cloud := ⟨SmartTree.empty (fun _ _ => 0) id id, [], []⟩

/-- The direction stored for point `k`. -/
def Cloud.dirAt (C : Cloud) (k : Nat) : V3 := C.dir.getD k fun _ => 0

/-- `dart` with `dart[3] = 1.0` (MeshingVoroCrustSampler.cpp:467, 522). -/
noncomputable def cloudPoint (x : Nat → ℝ) : Nat → ℝ := upd x 3 1

/-- Storing one point of a cloud (MeshingVoroCrustSampler.cpp:464-471, 522-527). -/
noncomputable def addCloud (rb : Nat → Nat → Bool) (C : Cloud) (x : Nat → ℝ) (v : V3) (f : Nat) : Option Cloud :=
  match addTreePoint realLt 3 rb C.tree (cloudPoint x) with
  | .none => .none
  | some t => some ⟨t, C.dir ++ [v], C.ids ++ [f]⟩

/-! ## Sharp edges -/

/-- The table of edge lengths (MeshingVoroCrustSampler.cpp:420-428). -/
noncomputable def edgeTable (S : PoolSurface (Nat → ℝ)) : Nat → ℝ :=
  weightTable S.numFaces fun e => distance 3 (S.point (S.corner e 0)) (S.point (S.corner e 1))

/-- A point of a sharp edge (MeshingVoroCrustSampler.cpp:434-462): `u` and `v` are the numbers drawn.  Result: the dart, the tangent and the edge. -/
noncomputable def edgeCloudPoint (S : PoolSurface (Nat → ℝ)) (u v : ℝ) : Option ((Nat → ℝ) × V3 × Nat) :=
  match tablePick S.numFaces (fun i => realLt u (edgeTable S i)) (fun i => realLt (edgeTable S i) u) S.numFaces with
  | none => none
  | some e =>
    match S.at e 0, S.at e 1 with
    | some a, some b => some (fun d => a d + v * (b d - a d), (normalize3 fun d => toV3 b d - toV3 a d).1, e)
    | _, _ => none

/-- The loop over the points (MeshingVoroCrustSampler.cpp:431-474), for `n` points. -/
noncomputable def edgeCloud (rb : Nat → Nat → Bool) (S : PoolSurface (Nat → ℝ)) (U : Nat → ℝ) : Nat → Option Cloud
  | 0 => some Cloud.none
  | n + 1 =>
    match edgeCloud rb S U n with
    | none => none
    | some C =>
      match edgeCloudPoint S (U (2 * n)) (U (2 * n + 1)) with
      | none => none
      | some (x, v, e) => addCloud rb C x v e

/-! ## Faces -/

/-- The table of face areas (MeshingVoroCrustSampler.cpp:484-491). -/
noncomputable def areaTable (S : PoolSurface (Nat → ℝ)) : Nat → ℝ :=
  weightTable S.numFaces fun f => area3 (S.point (S.corner f 0)) (S.point (S.corner f 1)) (S.point (S.corner f 2))

/-- A point of the surface (MeshingVoroCrustSampler.cpp:496-520): the dart and its face. -/
noncomputable def faceCloudPoint (S : PoolSurface (Nat → ℝ)) (u : ℝ) (us : Nat → ℝ) : Option ((Nat → ℝ) × Nat) :=
  match tablePick S.numFaces (fun i => realLt u (areaTable S i)) (fun i => realLt (areaTable S i) u) S.numFaces with
  | none => none
  | some f =>
    match S.at f 0, S.at f 1, S.at f 2 with
    | some a, some b, some c =>
      match sampleSimplex 3 (fun j => if j = 0 then a else if j = 1 then b else c) us with
      | none => none
      | some p => some (p, f)
    | _, _, _ => none

/-- The loop over the points (MeshingVoroCrustSampler.cpp:493-530), for `n` points; `N` is `_face_normal`. -/
noncomputable def faceCloud (rb : Nat → Nat → Bool) (S : PoolSurface (Nat → ℝ)) (N : List V3) (U : Nat → ℝ) : Nat → Option Cloud
  | 0 => some Cloud.none
  | n + 1 =>
    match faceCloud rb S N U n with
    | none => none
    | some C =>
      match faceCloudPoint S (U (3 * n)) (fun k => U (3 * n + k)) with
      | none => none
      | some (x, f) =>
        match N[f]? with
        | none => none
        | some v => addCloud rb C x v f

/-! ## Distances -/

/-- The result of a query, started with `DBL_MAX`. -/
noncomputable def Cloud.nearest (C : Cloud) (far : Nat → Bool) (x : Nat → ℝ) : Option (WithTop ℝ) :=
  match closestQuery Rounding.exact C.tree.spheres C.tree.links far x false ⊤ with
  | .none => .none
  | some (_, h) => some h

/-- `dx * normal` summed up and divided by the distance (MeshingSmartTree.cpp:2505-2515, 2600-2617, 2803-2815). -/
noncomputable def alignment (x p : Nat → ℝ) (v : V3) : ℝ := dot3 (fun d => toV3 x d - toV3 p d) v / distance 3 x p

/-- `sqrt(1.0 - dot * dot) > smoothness_threshold` (MeshingSmartTree.cpp:2515-2519, 2613-2617).  The square root of a negative number is not a number, and the comparison with it fails. -/
def flatAlong (th a : ℝ) : Prop := 0 ≤ 1 - a * a ∧ Real.sqrt (1 - a * a) > th

/-- `!smooth` with a tolerance (MeshingSmartTree.cpp:2504-2519). -/
noncomputable def offPlane (tol th : ℝ) (x p : Nat → ℝ) (v : V3) : Bool :=
  decide (¬ if distance 3 x p > tol then flatAlong th (alignment x p v) else 1 > th)

/-- `!smooth` of a point of a sharp edge (MeshingSmartTree.cpp:2802-2819). -/
noncomputable def offLine (tol th : ℝ) (x p : Nat → ℝ) (v : V3) : Bool :=
  decide (¬ (if distance 3 x p > tol then |alignment x p v| else 1) > th)

/-- `!smooth` with the normal of the face of `x` (MeshingSmartTree.cpp:2599-2620). -/
noncomputable def offFace (th : ℝ) (x p : Nat → ℝ) (w v : V3) : Bool :=
  decide (distance 3 x p > 1e-10 ∧ ¬ (flatAlong th (alignment x p v) ∧ flatAlong th (alignment x p w)))

/-- `get_closest_non_smooth_tree_point` with a tolerance (MeshingSmartTree.cpp:665-670, 2496-2589). -/
noncomputable def Cloud.plane (C : Cloud) (tol th : ℝ) (x : Nat → ℝ) : Option (WithTop ℝ) :=
  C.nearest (fun k => offPlane tol th x (C.tree.pts k) (C.dirAt k)) x

/-- `get_closest_non_smooth_tree_edge_point` (MeshingSmartTree.cpp:691-696, 2794-2887). -/
noncomputable def Cloud.line (C : Cloud) (tol th : ℝ) (x : Nat → ℝ) : Option (WithTop ℝ) :=
  C.nearest (fun k => offLine tol th x (C.tree.pts k) (C.dirAt k)) x

/-- `get_closest_non_smooth_tree_point` with a normal (MeshingSmartTree.cpp:673-678, 2591-2686). -/
noncomputable def Cloud.face (C : Cloud) (th : ℝ) (x : Nat → ℝ) (w : V3) : Option (WithTop ℝ) :=
  C.nearest (fun k => offFace th x (C.tree.pts k) w (C.dirAt k)) x

/-- The prescribed size (MeshingVoroCrustSampler.cpp:1116-1123, 1256-1263, 2688-2695): `⊤` without a sizing function.  With an empty tree `get_closest_tree_point` returns
`_num_points`, and the record behind the last one is read. -/
noncomputable def sizeAt (t : Option STree) (x : Nat → ℝ) : Option (WithTop ℝ) :=
  match t with
  | none => some ⊤
  | some t =>
    if t.store.num = 0 then none
    else
      match closestQuery Rounding.exact t.store t.links (fun _ => true) x false ⊤ with
      | none => none
      | some (c, _) => if c < t.store.num then some ((t.store.pts c 3 : ℝ) : WithTop ℝ) else none

end VoroCrust
