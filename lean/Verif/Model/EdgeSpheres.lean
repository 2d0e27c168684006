import Verif.Model.Pool
import Verif.Model.Corners
import Verif.Model.Geometry
import Verif.Model.Random
import Verif.Model.Seeds

/-! # Model of `MeshingVoroCrustSampler::generate_edge_spheres`

The distances to the non-smooth points of the two point clouds and the prescribed size are parameters, as in `Model/Corners.lean`; the query of the corner spheres is the
tree query.  Random numbers are a stream.  `Option (Option α)`: `none` is undefined behaviour, `some none` means that the fuel of a `while (true)` loop is used up.
-/

namespace VoroCrust

open Classical

/-- The sphere records of a tree as a point store. -/
noncomputable def SmartTree.spheres (t : SmartTree ℝ) : PointStore ℝ := { pts := t.pts, num := t.num, dim := 3, lt := realLt }

/-- A growing sphere tree seen by the queries. -/
noncomputable def SmartTree.asSTree (t : SmartTree ℝ) : STree := ⟨t.spheres, t.links⟩

/-- The inputs of `generate_edge_spheres` (MeshingVoroCrustSampler.cpp:1174-1177): points and sharp edges, corner spheres, clearance queries, `feature_TOL`,
`smooth_angle_threshold`, `rmax`, `_r_min_edges`, `Lip`, `coverage_radius_ratio`, the re-balancing policy and the random numbers. -/
structure EdgeSetup where
  S : PoolSurface (Nat → ℝ)
  corner : STree
  q : CornerQueries
  tol : ℝ
  th : ℝ
  rmax : ℝ
  rmin : ℝ
  L : ℝ
  ratio : ℝ
  rb : Nat → Nat → Bool
  U : Nat → ℝ

/-- `corner_spheres->get_closest_non_smooth_tree_edge_point` (MeshingVoroCrustSampler.cpp:1230-1231, MeshingSmartTree.cpp:691-696, 2794-2887).  Corner spheres are stored with
normal zero (1133), so `dot` is 0, or 1 within the tolerance. -/
noncomputable def cornerClearance (E : EdgeSetup) (x : Nat → ℝ) : Option (WithTop ℝ) :=
  match closestQuery Rounding.exact E.corner.store E.corner.links
      (fun k => decide (¬ (if distance 3 x (E.corner.store.pts k) > E.tol then (0 : ℝ) else 1) > E.th)) x false ⊤ with
  | none => none
  | some (_, h) => some h

/-- The loop over the spheres near the dart (MeshingVoroCrustSampler.cpp:1238-1247, 2716-2725); `β` is `min_distance_ratio`. -/
noncomputable def limitNear (P : PointStore ℝ) (L β : ℝ) (x : Nat → ℝ) : List Nat → WithTop ℝ → WithTop ℝ
  | [], sz => sz
  | s :: ss, sz =>
    limitNear P L β x ss (min (min sz ((distance 3 x (P.pts s) / β : ℝ) : WithTop ℝ)) ((radius P s + L * distance 3 x (P.pts s) : ℝ) : WithTop ℝ))

/-- `edge_spheres`, the attribute `attrib[1]` of every sphere, `new_sphere[3]` (unwritten at first) and the number of random numbers drawn. -/
structure EdgeRun where
  tree : SmartTree ℝ
  ids : List Nat
  stale : Option ℝ
  pos : Nat

/-- The spheres near the dart (MeshingVoroCrustSampler.cpp:1234-1237): only with more than one sphere, and with the radius of the previous accepted dart. -/
noncomputable def nearDart (E : EdgeSetup) (r : EdgeRun) (x : Nat → ℝ) : Option (List Nat) :=
  if r.tree.num > 1 then
    match r.stale with
    | none => none
    | some ρ => overlappingSpheres r.tree.spheres r.tree.links E.L x ρ
  else some []

/-- The bounds of MeshingVoroCrustSampler.cpp:1251-1264 applied to `fmin(surf_sz, edge_sz)`. -/
noncomputable def boundRadius (sz size : WithTop ℝ) (rmax rmin : ℝ) : ℝ :=
  let r : ℝ := match sz with
    | none => rmax
    | some r => if r > rmax then rmax else r
  capAt (if r < rmin then rmin else r) size

/-- The radius of a new edge sphere (MeshingVoroCrustSampler.cpp:1222-1264). -/
noncomputable def edgeRadius (E : EdgeSetup) (r : EdgeRun) (x : Nat → ℝ) : Option ℝ :=
  match E.q.surf x, E.q.edge x, cornerClearance E x, nearDart E r x, E.q.size x with
  | some s, some e, some c, some l, some z =>
    some (boundRadius (min (scaleSz s) (limitNear r.tree.spheres E.L (Real.sqrt (1 - E.ratio * E.ratio)) x l (min (scaleSz e) (scaleSz c)))) z E.rmax E.rmin)
  | _, _, _, _, _ => none

/-- Storing the sphere (MeshingVoroCrustSampler.cpp:1266-1275). -/
noncomputable def storeEdgeSphere (E : EdgeSetup) (r : EdgeRun) (x : Nat → ℝ) (f : Nat) : Option EdgeRun :=
  match edgeRadius E r x with
  | none => none
  | some ρ =>
    match addTreePoint realLt 3 E.rb r.tree (upd x 3 ρ) with
    | none => none
    | some t => some ⟨t, r.ids ++ [f], some ρ, r.pos⟩

/-- The two `point_covered` calls (MeshingVoroCrustSampler.cpp:1211-1213). -/
noncomputable def dartCovered (E : EdgeSetup) (r : EdgeRun) (x : Nat → ℝ) : Option Bool :=
  match pointCovered E.corner.store E.corner.links E.L 0 x with
  | none => none
  | some true => some true
  | some false => pointCovered r.tree.spheres r.tree.links E.L E.ratio x

/-- The table of a pool (MeshingVoroCrustSampler.cpp:2377-2378, 2410-2411). -/
noncomputable def poolTable (pool : List (PoolEntry ℝ)) : Nat → ℝ :=
  weightTable pool.length fun i => match pool[i]? with
    | none => 0
    | some e => e.weight

/-- One dart (MeshingVoroCrustSampler.cpp:1207-1282); second component: `valid_dart`. -/
noncomputable def edgeDart (E : EdgeSetup) (level : Nat) (pool : List (PoolEntry ℝ)) (r : EdgeRun) : Option (EdgeRun × Bool) :=
  match sampleActiveEdge E.S level pool (poolTable pool) (E.U r.pos) (E.U (r.pos + 1)) with
  | none => none
  | some (x, f) =>
    match dartCovered E r x with
    | none => none
    | some true => some ({ r with pos := r.pos + 2 }, false)
    | some false =>
      match storeEdgeSphere E { r with pos := r.pos + 2 } x f with
      | none => none
      | some r' => some (r', true)

/-- The sampling loop (MeshingVoroCrustSampler.cpp:1203-1293). -/
noncomputable def edgeMps (E : EdgeSetup) : Nat → Nat → List (PoolEntry ℝ) → Nat → EdgeRun → Option (Option EdgeRun)
  | 0, _, _, _, _ => some none
  | fuel + 1, level, pool, misses, r =>
    match edgeDart E level pool r with
    | none => none
    | some (r', valid) =>
      if (if valid then 0 else misses + 1) = 100 then
        match refineSeq (uncoveredEdges midpoint3 (distance 3) (coveredEdge r'.tree.asSTree E.corner E.L E.ratio) E.S level) pool with
        | none => none
        | some new => if new.length = 0 then some (some r') else edgeMps E fuel (level + 1) new 0 r'
      else edgeMps E fuel level pool (if valid then 0 else misses + 1) r'

/-- The radius one other edge allows (MeshingVoroCrustSampler.cpp:1322-1337), `none` where the code continues. -/
noncomputable def narrowLimit (th tol rmin : ℝ) (x a b : V3) : Option ℝ :=
  if (normalize3 fun d => b d - a d).2 then
    match projSegment x a b with
    | none => none
    | some (q, h) =>
      if (normalize3 fun d => x d - q d).2 then
        if |dot3 (normalize3 fun d => b d - a d).1 (normalize3 fun d => x d - q d).1| > th then none
        else if h * 0.4 < tol then none
        else some (if h * 0.4 < rmin then rmin else h * 0.4)
      else none
  else none

/-- `if (sphere_i[3] < (1 + 1E-8) * proj_dst) continue; sphere_i[3] = proj_dst; spheres_shrunk = true` (MeshingVoroCrustSampler.cpp:1338-1340). -/
noncomputable def shrinkTo (l : Option ℝ) (s : ℝ × Bool) : ℝ × Bool :=
  match l with
  | none => s
  | some l => if s.1 < (1 + 1e-8) * l then s else (l, true)

/-- The loop over the overlapping spheres (MeshingVoroCrustSampler.cpp:1315-1342): radius of sphere `i` and `spheres_shrunk`. -/
noncomputable def narrowNear (E : EdgeSetup) (ids : List Nat) (x : Nat → ℝ) (ei : Nat) : List Nat → ℝ × Bool → Option (ℝ × Bool)
  | [], s => some s
  | j :: js, s =>
    match ids[j]? with
    | none => none
    | some ej =>
      if ei = ej then narrowNear E ids x ei js s
      else
        match E.S.at ej 0, E.S.at ej 1 with
        | some a, some b => narrowNear E ids x ei js (shrinkTo (narrowLimit E.th E.tol E.rmin (toV3 x) (toV3 a) (toV3 b)) s)
        | _, _ => none

/-- The validation of the sizes (MeshingVoroCrustSampler.cpp:1301-1346) for the first spheres. -/
noncomputable def narrowPass (E : EdgeSetup) (ln : Links) (ids : List Nat) (P : PointStore ℝ) : Nat → Option (PointStore ℝ × Bool)
  | 0 => some (P, false)
  | i + 1 =>
    match narrowPass E ln ids P i with
    | none => none
    | some (Q, sh) =>
      match ids[i]?, overlappingSpheres Q ln E.L (Q.pts i) (radius Q i) with
      | some ei, some l =>
        match narrowNear E ids (Q.pts i) ei l (radius Q i, sh) with
        | none => none
        | some s => some (setAttr Q i 0 s.1, s.2)
      | _, _ => none

/-- The `while (true)` loop (MeshingVoroCrustSampler.cpp:1198-1349). -/
noncomputable def edgeSphereLoop (E : EdgeSetup) (mps : Nat) : Nat → EdgeRun → Option (Option EdgeRun)
  | 0, _ => some none
  | fuel + 1, r =>
    match initialEdges (distance 3) E.S E.S.numFaces with
    | none => none
    | some pool =>
      match edgeMps E mps 0 pool 0 r with
      | none => none
      | some none => some none
      | some (some r1) =>
        match lipTree r1.tree.links E.L r1.tree.num r1.tree.spheres false with
        | none => none
        | some (P, true) => edgeSphereLoop E mps fuel { r1 with tree := { r1.tree with pts := P.pts } }
        | some (P, false) =>
          match narrowPass E r1.tree.links r1.ids P r1.tree.num with
          | none => none
          | some (Q, true) => edgeSphereLoop E mps fuel { r1 with tree := { r1.tree with pts := Q.pts } }
          | some (Q, false) => some (some { r1 with tree := { r1.tree with pts := Q.pts } })

/-- `generate_edge_spheres` (MeshingVoroCrustSampler.cpp:1174-1376) with an empty tree of edge spheres. -/
noncomputable def edgeSpheres (E : EdgeSetup) (mps fuel : Nat) : Option (Option EdgeRun) :=
  edgeSphereLoop E mps fuel ⟨SmartTree.empty (fun _ _ => 0) id id, [], none, 0⟩

end VoroCrust
