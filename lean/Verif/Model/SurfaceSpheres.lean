import Verif.Model.EdgeSpheres
import Verif.Model.Mesh

/-! # Model of `MeshingVoroCrustSampler::generate_surface_spheres`

Built without OpenMP, or with threads that run one after the other: within each of the two regions of `sample_active_pool` the threads take their turn in order.  With OpenMP and
more than one thread the second region reads `covered_sample` and `new_sphere` of other threads without synchronisation, which is a data race; it is not modelled.  The refinement
of the pool is the sequential one, to which C33 reduces all schedules.  The distances to the non-smooth points of the two point clouds and the prescribed size are parameters, as in
`Model/Corners.lean`.  Random numbers are one stream per thread.  `Option (Option α)`: `none` is undefined behaviour, `some none` means that the fuel of a `while (true)` loop is
used up.  Output files and timing are left out.
-/

namespace VoroCrust

open Classical

/-- The inputs of `generate_surface_spheres` (MeshingVoroCrustSampler.cpp:1380-1384): points and faces, edge and corner spheres, the distance from a point of a face to the nearest
non-smooth point of the surface cloud and to the nearest one of the edge cloud (`⊤` if this cloud is empty) and the prescribed size, `R_MIN`, `smooth_angle_threshold`, `rmax`,
`_r_min_surface`, `Lip`, `coverage_radius_ratio`, `_num_threads`, the re-balancing policy, the random numbers of each thread, the random directions of each call of
`generate_surface_seeds`, the distances computed by `resolve_sliver`, and the unwritten value of its output. -/
structure SurfSetup where
  S : PoolSurface (Nat → ℝ)
  edge : STree
  corner : STree
  surf : (Nat → ℝ) → Nat → Option (WithTop ℝ)
  cloud : (Nat → ℝ) → Option (WithTop ℝ)
  size : (Nat → ℝ) → Option (WithTop ℝ)
  tol : ℝ
  th : ℝ
  rmax : ℝ
  rmin : ℝ
  L : ℝ
  ratio : ℝ
  T : Nat
  rb : Nat → Nat → Bool
  U : Nat → Nat → ℝ
  dart : Nat → Nat → Nat → Nat → ℝ
  hm : SphereSet → List Nat → Nat × Nat × Nat → Nat → Option ℝ
  r0 : ℝ

/-- `surface_spheres`, the attribute `attrib[1]` of every sphere, `new_sphere[thread][3]` (unwritten at first), the number of calls of `sample_active_pool` and of
`generate_surface_seeds`. -/
structure SurfRun where
  tree : SmartTree ℝ
  ids : List Nat
  stale : Nat → Option ℝ
  calls : Nat
  seedings : Nat

/-! ## Drawing darts -/

/-- `corner_spheres->get_closest_non_smooth_tree_edge_point` (MeshingVoroCrustSampler.cpp:2704-2709, MeshingSmartTree.cpp:691-696, 2794-2887), only with corner spheres.  They
are stored with normal zero (1133), so `dot` is 0, or 1 within the tolerance. -/
noncomputable def cornerLimit (E : SurfSetup) (x : Nat → ℝ) : Option (WithTop ℝ) :=
  if E.corner.store.num > 0 then
    match closestQuery Rounding.exact E.corner.store E.corner.links
        (fun k => decide (¬ (if distance 3 x (E.corner.store.pts k) > E.tol then (0 : ℝ) else 1) > E.th)) x false ⊤ with
    | none => none
    | some (_, h) => some h
  else some ⊤

/-- The spheres near the dart (MeshingVoroCrustSampler.cpp:2711-2714): with the radius left in `new_sphere[thread][3]` by the previous accepted dart of this thread. -/
noncomputable def nearSurfDart (E : SurfSetup) (r : SurfRun) (t : Nat) (x : Nat → ℝ) : Option (List Nat) :=
  if r.tree.num > 0 then
    match r.stale t with
    | none => none
    | some ρ => overlappingSpheres r.tree.spheres r.tree.links E.L x ρ
  else some []

/-- `fmax(surf_sz, _r_min_surface)` (MeshingVoroCrustSampler.cpp:2728) for a size that is at most `rmax`. -/
noncomputable def atLeast (sz : WithTop ℝ) (rmin : ℝ) : ℝ :=
  match sz with
  | none => rmin
  | some a => max a rmin

/-- The radius of a new surface sphere (MeshingVoroCrustSampler.cpp:2680-2730). -/
noncomputable def surfRadius (E : SurfSetup) (r : SurfRun) (t : Nat) (x : Nat → ℝ) (f : Nat) : Option ℝ :=
  match E.surf x f, E.size x, E.cloud x, cornerLimit E x, nearSurfDart E r t x with
  | some s, some z, some e, some c, some l =>
    some (atLeast (limitNear r.tree.spheres E.L (Real.sqrt (1 - E.ratio * E.ratio)) x l
      (min (min (min (min (E.rmax : WithTop ℝ) (scaleSz s)) z) (scaleSz e)) (scaleSz c))) E.rmin)
  | _, _, _, _, _ => none

/-- What the arrays hold for one thread: `new_sphere`, `new_sphere_face`, `covered_sample`. -/
structure Draw where
  sphere : Nat → ℝ
  face : Nat
  covered : Bool

/-- The three `point_covered` calls (MeshingVoroCrustSampler.cpp:2648-2651). -/
noncomputable def surfCovered (E : SurfSetup) (r : SurfRun) (x : Nat → ℝ) : Option Bool :=
  match pointCovered E.corner.store E.corner.links E.L 0 x with
  | none => none
  | some true => some true
  | some false =>
    match pointCovered E.edge.store E.edge.links E.L 0 x with
    | none => none
    | some true => some true
    | some false => pointCovered r.tree.spheres r.tree.links E.L E.ratio x

/-- The first region for threads `< n` (MeshingVoroCrustSampler.cpp:2633-2652). -/
noncomputable def drawDarts (E : SurfSetup) (level : Nat) (pool : List (PoolEntry ℝ)) (r : SurfRun) : Nat → Option (List Draw)
  | 0 => some []
  | t + 1 =>
    match drawDarts E level pool r t with
    | none => none
    | some ds =>
      match sampleActiveFace E.S level pool (poolTable pool) (E.U t (3 * r.calls)) (fun k => E.U t (3 * r.calls + k)) with
      | none => none
      | some (x, f) =>
        match surfCovered E r x with
        | none => none
        | some b => some (ds ++ [⟨x, f, b⟩])

/-- `point_covered` by the new sphere of an earlier thread (MeshingVoroCrustSampler.cpp:2672-2677). -/
noncomputable def hitBy (E : SurfSetup) (prev : List Draw) (x : Nat → ℝ) : Bool :=
  prev.any fun p => !p.covered && pointCoveredBy x p.sphere E.ratio

/-- The second region (MeshingVoroCrustSampler.cpp:2657-2733): `prev` are the threads that are through, thread `prev.length` is next. -/
noncomputable def sizeDarts (E : SurfSetup) : List Draw → List Draw → SurfRun → Option (List Draw × SurfRun)
  | prev, [], r => some (prev, r)
  | prev, d :: ds, r =>
    if d.covered then sizeDarts E (prev ++ [d]) ds r
    else if hitBy E prev d.sphere then sizeDarts E (prev ++ [{ d with covered := true }]) ds r
    else
      match surfRadius E r prev.length d.sphere d.face with
      | none => none
      | some ρ => sizeDarts E (prev ++ [{ d with sphere := upd d.sphere 3 ρ }]) ds { r with stale := upd r.stale prev.length (some ρ) }

/-- Adding the samples (MeshingVoroCrustSampler.cpp:1446-1487): the new state and `num_misses`. -/
noncomputable def addDarts (E : SurfSetup) : List Draw → SurfRun → Nat → Option (SurfRun × Nat)
  | [], r, m => some (r, m)
  | d :: ds, r, m =>
    if d.covered then
      if m + 1 ≥ 100 then some (r, m + 1) else addDarts E ds r (m + 1)
    else
      match addTreePoint realLt 3 E.rb r.tree d.sphere with
      | none => none
      | some t => addDarts E ds { r with tree := t, ids := r.ids ++ [d.face] } 0

/-- One call of `sample_active_pool` and the addition of its samples (MeshingVoroCrustSampler.cpp:1436-1487). -/
noncomputable def surfRound (E : SurfSetup) (level : Nat) (pool : List (PoolEntry ℝ)) (r : SurfRun) (m : Nat) : Option (SurfRun × Nat) :=
  match drawDarts E level pool r E.T with
  | none => none
  | some ds =>
    match sizeDarts E [] ds r with
    | none => none
    | some (ds, r) => addDarts E ds { r with calls := r.calls + 1 } m

/-- `get_3d_triangle_area` of three points. -/
noncomputable def area3 (a b c : Nat → ℝ) : ℝ := triArea (centreTri a b c)

/-- The sampling loop of one patch (MeshingVoroCrustSampler.cpp:1431-1496). -/
noncomputable def surfMps (E : SurfSetup) : Nat → Nat → List (PoolEntry ℝ) → Nat → SurfRun → Option (Option SurfRun)
  | 0, _, _, _, _ => some none
  | fuel + 1, level, pool, misses, r =>
    match surfRound E level pool r misses with
    | none => none
    | some (r', m) =>
      if m ≥ 100 then
        match refineSeq (uncoveredChildren midpoint3 area3 (coveredFace r'.tree.asSTree E.edge E.corner E.L E.ratio) E.S level) pool with
        | none => none
        | some new => if new.length = 0 then some (some r') else surfMps E fuel (level + 1) new 0 r'
      else surfMps E fuel level pool m r'

/-- The loop over the patches (MeshingVoroCrustSampler.cpp:1427-1429), given the faces of each patch. -/
noncomputable def surfPatches (E : SurfSetup) (mps : Nat) : List (Nat × List Nat) → SurfRun → Option (Option SurfRun)
  | [], r => some (some r)
  | p :: ps, r =>
    match initialPool area3 E.S p.2 with
    | none => none
    | some pool =>
      match surfMps E mps 0 pool 0 r with
      | none => none
      | some none => some none
      | some (some r') => surfPatches E mps ps r'

/-! ## Narrow regions -/

/-- The corners of face `f` as the validation of the sizes takes them: `faces[f][1]`, `faces[f][2]` and again `faces[f][2]` (MeshingVoroCrustSampler.cpp:1538-1539). -/
noncomputable def narrowCorners (S : PoolSurface (Nat → ℝ)) (f : Nat) : Option (Fin 3 → V3) :=
  match S.at f 0, S.at f 1, S.at f 1 with
  | some a, some b, some c => some ![toV3 a, toV3 b, toV3 c]
  | _, _, _ => none

/-- The radius one other face allows (MeshingVoroCrustSampler.cpp:1541-1560), `none` where the code continues.  The square root of a negative number is not a number, and the
comparison with it fails. -/
noncomputable def faceLimit (th tol rmin : ℝ) (x : V3) (c : Fin 3 → V3) : Option ℝ :=
  let q := projTriangle x c
  let v := normalize3 fun d => x d - q.1 d
  if v.2 then
    let dot := dot3 (triNormal c).1 v.1
    if 0 ≤ 1 - dot * dot ∧ |Real.sqrt (1 - dot * dot)| > th then none
    else if q.2 * 0.4 < tol then none
    else some (if q.2 * 0.4 < rmin then rmin else q.2 * 0.4)
  else none

/-- The loop over the overlapping spheres (MeshingVoroCrustSampler.cpp:1531-1565): radius of sphere `i` and `spheres_shrunk_sizing`. -/
noncomputable def narrowFaces (E : SurfSetup) (ids : List Nat) (x : Nat → ℝ) (fi : Nat) : List Nat → ℝ × Bool → Option (ℝ × Bool)
  | [], s => some s
  | j :: js, s =>
    match ids[j]? with
    | none => none
    | some fj =>
      if fi = fj then narrowFaces E ids x fi js s
      else
        match narrowCorners E.S fj with
        | none => none
        | some c => narrowFaces E ids x fi js (shrinkTo (faceLimit E.th E.tol E.rmin (toV3 x) c) s)

/-- The validation of the sizes (MeshingVoroCrustSampler.cpp:1517-1569) for the first spheres. -/
noncomputable def narrowSurf (E : SurfSetup) (ln : Links) (ids : List Nat) (P : PointStore ℝ) : Nat → Option (PointStore ℝ × Bool)
  | 0 => some (P, false)
  | i + 1 =>
    match narrowSurf E ln ids P i with
    | none => none
    | some (Q, sh) =>
      match ids[i]?, overlappingSpheres Q ln E.L (Q.pts i) (radius Q i) with
      | some fi, some l =>
        match narrowFaces E ids (Q.pts i) fi l (radius Q i, sh) with
        | none => none
        | some s => some (setAttr Q i 0 s.1, s.2)
      | _, _ => none

/-! ## The loop -/

/-- The spheres of all three trees. -/
def SurfSetup.spheres (E : SurfSetup) (P : PointStore ℝ) (ln : Links) : SphereSet := ⟨P, ln, E.edge.store, E.edge.links, E.corner.store, E.corner.links⟩

/-- `resolve_sliver` for the spheres `cs`; edge and corner spheres are fixed (MeshingVoroCrustSampler.cpp:3334-3355). -/
noncomputable def resolveIn (E : SurfSetup) (Z : SphereSet) (cs : List Nat) : Nat × ℝ :=
  let s := resolveSliver cs.length (fun l => Z.at (cs.getD l 0) 3) (fun l => decide (Z.S.num ≤ cs.getD l 0)) (E.hm Z cs) E.r0
  (s.index, s.radius)

/-- The parameters of one call of `generate_surface_seeds`: the face of sphere `i` is the one recorded for it (MeshingVoroCrustSampler.cpp:3254-3263). -/
noncomputable def SurfSetup.env (E : SurfSetup) (Z : SphereSet) (r : SurfRun) : SeedEnv where
  dart := E.dart r.seedings
  face i := match r.ids[i]? with
    | none => fun _ _ => 0
    | some f => fun k => toV3 (E.S.point (E.S.corner f k.val))
  resolve := resolveIn E Z
  rb := E.rb

/-- `surf_faces` (MeshingVoroCrustSampler.cpp:1590-1600): the three spheres of every seed of `int_surf_seeds`. -/
def sphereTriples (lo : SeedTree) : List (List Nat) := lo.attr.map fun a => [a.s1, a.s2, a.s3]

/-- Storing the radii of the first spheres. -/
noncomputable def setRadii (r : Nat → ℝ) : Nat → PointStore ℝ → PointStore ℝ
  | 0, P => P
  | n + 1, P => setAttr (setRadii r n P) n 0 (r n)

/-- The tree with the points of `P`. -/
noncomputable def SurfRun.withPts (r : SurfRun) (P : PointStore ℝ) : SurfRun := { r with tree := { r.tree with pts := P.pts } }

/-- The end of one round of the loop (MeshingVoroCrustSampler.cpp:1571-1605): the state and, if the loop ends, the two trees of seeds. -/
noncomputable def surfFinish (E : SurfSetup) (r : SurfRun) : Option (SurfRun × Option (SeedTree × SeedTree)) :=
  match lipTree r.tree.links E.L r.tree.num r.tree.spheres false with
  | none => none
  | some (P, true) => some (r.withPts P, none)
  | some (P, false) =>
    match surfaceSeeds (E.spheres P r.tree.links) E.L (E.env (E.spheres P r.tree.links) r) with
    | none => none
    | some (Q, true, _, _) => some ({ r with seedings := r.seedings + 1 }.withPts Q, none)
    | some (Q, false, up, lo) =>
      match validateSurface (Q.num + E.edge.store.num + E.corner.store.num) Q.num (sphereTriples lo) (fun q => Q.pts q 3) with
      | none => none
      | some v => some ({ r with seedings := r.seedings + 1 }.withPts (setRadii v.radius Q.num Q), if v.tight then some (up, lo) else none)

/-- The part of the loop after the patches (MeshingVoroCrustSampler.cpp:1514-1605). -/
noncomputable def surfCheck (E : SurfSetup) (r : SurfRun) : Option (SurfRun × Option (SeedTree × SeedTree)) :=
  if E.tol > 0 then
    match narrowSurf E r.tree.links r.ids r.tree.spheres r.tree.num with
    | none => none
    | some (P, true) => some (r.withPts P, none)
    | some (P, false) => surfFinish E (r.withPts P)
  else surfFinish E r

/-- The `while (true)` loop (MeshingVoroCrustSampler.cpp:1421-1607).  `num_patches` stays 1 after a first round with fewer than 100 faces, which gives the same patch again. -/
noncomputable def surfLoop (E : SurfSetup) (mps : Nat) : Nat → SurfRun → Option (Option (SurfRun × SeedTree × SeedTree))
  | 0, _ => some none
  | fuel + 1, r =>
    match patchLoop E.S.numFaces 100 0 100 with
    | none => none
    | some ps =>
      match surfPatches E mps ps r with
      | none => none
      | some none => some none
      | some (some r1) =>
        match surfCheck E r1 with
        | none => none
        | some (r2, none) => surfLoop E mps fuel r2
        | some (r2, some s) => some (some (r2, s))

/-- `generate_surface_spheres` (MeshingVoroCrustSampler.cpp:1380-1649) with an empty tree of surface spheres: the spheres and the exterior and interior seeds. -/
noncomputable def surfaceSpheres (E : SurfSetup) (mps fuel : Nat) : Option (Option (SurfRun × SeedTree × SeedTree)) :=
  surfLoop E mps fuel ⟨SmartTree.empty (fun _ _ => 0) id id, [], fun _ => none, 0, 0⟩

end VoroCrust
