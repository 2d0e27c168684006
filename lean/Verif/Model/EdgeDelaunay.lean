import Verif.Model.Interior

/-!
# Model of `MeshingVoronoiMesher::ensure_sharp_edge_spheres_are_Delaunay`

For every edge sphere and its two neighbours along the sharp edge a seed is added on the circle in which the two spheres meet, if there are not enough seeds.  Exact real arithmetic.  `none`
stands for undefined behaviour and for random draws used up.

Simplifications: the added seeds are a list (their array doubles when it is full, see C01); a tree point is excluded from a query by its old number, which is the same as by its new number (C11).
Where the code computes with a number that is not a number (coincident centres, spheres that do not meet) no point is found by the next search, and `old_index` is read outside its array: `none`.
-/

namespace VoroCrust

open Classical

/-- `dot += a[idim] * b[idim]` over three coordinates. -/
def dotN (u v : Nat → ℝ) : ℝ := u 0 * v 0 + u 1 * v 1 + u 2 * v 2

/-- `e2` (MeshingVoronoiMesher.cpp:258-260). -/
def crossN (u v : Nat → ℝ) : Nat → ℝ := fun d =>
  if d = 0 then u 1 * v 2 - u 2 * v 1 else if d = 1 then u 2 * v 0 - u 0 * v 2 else u 0 * v 1 - u 1 * v 0

/-- `dot >= 0.0`, where `dot` stays 0 without a direction (MeshingVoronoiMesher.cpp:2935-2945, 2979-2989). -/
noncomputable def aheadOf (x : Nat → ℝ) (e : Option (Nat → ℝ)) (p : Nat → ℝ) : Bool :=
  match e with
  | none => true
  | some v => decide (0 ≤ dotN (fun d => p d - x d) v)

/-- `get_closest_tree_point` with a direction and perhaps without one point, and `old_index[iclosest]` (MeshingVoronoiMesher.cpp:210-215, 226-231, 2719-2743).  If nothing is found `iclosest` is
`num_points`, not `SIZE_MAX` (2723, 2736), and `old_index` is read outside its array. -/
noncomputable def closestAhead (T : MTree) (xs : List SeedRec) (skip : Option Nat) (x : Nat → ℝ) (e : Option (Nat → ℝ)) : Option (SeedRec × ℝ) :=
  match closestQuery Rounding.exact T.P T.ln (fun i => decide (skip = none ∨ T.old i ≠ skip) && aheadOf x e (T.P.pts i)) x true ⊤ with
  | some (c, some d) =>
    match T.old c with
    | none => none
    | some o =>
      match xs[o]? with
      | none => none
      | some s => if c < T.P.num then some (s, d) else none
  | _ => none

/-- The sphere `xn` next to edge sphere `i` and its distance (MeshingVoronoiMesher.cpp:206-237). -/
noncomputable def nextSphere (FT : FeatureTrees) (F : Features) (i : Nat) (s : SeedRec) (e : Option (Nat → ℝ)) : Option (SeedRec × ℝ) :=
  match FT.edges with
  | none => none
  | some T =>
    match closestAhead T F.edges (some i) s.x e with
    | none => none
    | some (q, d) =>
      if d < s.size + q.size then some (q, d)
      else
        match FT.corners with
        | none => none
        | some T => closestAhead T F.corners none s.x e

/-- `eo / norm` (MeshingVoronoiMesher.cpp:239-245). -/
noncomputable def unitN (w : Nat → ℝ) : Nat → ℝ := fun k => w k / Real.sqrt (dotN w w)

/-- `e1` (MeshingVoronoiMesher.cpp:247-256): random directions `v` until one is not along the edge. -/
noncomputable def circleDir (eo : Nat → ℝ) : List (Nat → ℝ) → Option (Nat → ℝ)
  | [] => none
  | v :: vs =>
    let w : Nat → ℝ := fun k => v k - dotN v eo * eo k
    if Real.sqrt (dotN w w) < 0.001 then circleDir eo vs else some (unitN w)

/-- `pv` (MeshingVoronoiMesher.cpp:262-267): centre and radius of the circle of two spheres. -/
noncomputable def circleOf (s n : SeedRec) (d : ℝ) : Option ((Nat → ℝ) × ℝ) :=
  let h := (s.size * s.size - n.size * n.size + d * d) / (2 * d)
  if d = 0 ∨ s.size * s.size - h * h < 0 then none
  else some (fun k => s.x k + h / d * (n.x k - s.x k), Real.sqrt (s.size * s.size - h * h))

/-- A random point of the circle (MeshingVoronoiMesher.cpp:280-281). -/
def circlePoint (c : Nat → ℝ) (r : ℝ) (e1 e2 : Nat → ℝ) (y : ℝ × ℝ) : Nat → ℝ := fun k => c k + r * (y.1 * e1 k + y.2 * e2 k)

/-- The candidates (MeshingVoronoiMesher.cpp:276-346): `h_best`, and `x_best` and `id_best` once they are set. -/
noncomputable def bestCandidate (T : MTree) (seeds : List SeedRec) (FT : FeatureTrees) (F : Features) (L : ℝ) (pt : ℝ × ℝ → Nat → ℝ) :
    List (ℝ × ℝ) → ℝ × Option ((Nat → ℝ) × Nat) → Option (ℝ × Option ((Nat → ℝ) × Nat))
  | [], b => some b
  | y :: ys, b =>
    match outsideAll FT.surface F.surface L (pt y) with
    | none => none
    | some false => bestCandidate T seeds FT F L pt ys b
    | some true =>
      match closestRec T seeds (pt y) with
      | none => none
      | some (q, _, d) =>
        if q.region = 0 then bestCandidate T seeds FT F L pt ys b
        else bestCandidate T seeds FT F L pt ys (if b.1 < d then (d, some (pt y, q.region)) else b)

/-- One neighbour of an edge sphere (MeshingVoronoiMesher.cpp:204-366): `eo` and the seed to add. -/
noncomputable def edgeSeed (T : MTree) (seeds : List SeedRec) (FT : FeatureTrees) (F : Features) (L : ℝ) (i : Nat) (s : SeedRec) (e : Option (Nat → ℝ)) (vs : List (Nat → ℝ))
    (ys : List (ℝ × ℝ)) : Option ((Nat → ℝ) × Option SeedRec) :=
  match nextSphere FT F i s e with
  | none => none
  | some (n, d) =>
    let eo := unitN fun k => s.x k - n.x k
    match circleDir eo vs, circleOf s n d with
    | some e1, some (c, r) =>
      match nearRecs T c r with
      | none => none
      | some l =>
        if 2 < l.length then some (eo, none)
        else
          match bestCandidate T seeds FT F L (circlePoint c r e1 (crossN eo e1)) ys (0, none) with
          | none => none
          | some (_, none) => some (eo, none)
          | some (h, some (x, q)) => some (eo, if h < 1e-10 then none else some ⟨x, r, q⟩)
    | _, _ => none

/-- The loop over the edge spheres (MeshingVoronoiMesher.cpp:195-384), from number `i` on: the seeds added.  `vs` and `ys` are the random draws for each sphere and side. -/
noncomputable def edgeSeeds (T : MTree) (seeds : List SeedRec) (FT : FeatureTrees) (F : Features) (L : ℝ) (vs : Nat → Bool → List (Nat → ℝ)) (ys : Nat → Bool → List (ℝ × ℝ)) :
    List SeedRec → Nat → Option (List SeedRec)
  | [], _ => some []
  | s :: l, i =>
    match edgeSeed T seeds FT F L i s none (vs i false) (ys i false) with
    | none => none
    | some (eo, a) =>
      match edgeSeed T seeds FT F L i s (some eo) (vs i true) (ys i true) with
      | none => none
      | some (_, b) =>
        match edgeSeeds T seeds FT F L vs ys l (i + 1) with
        | none => none
        | some r => some (a.toList ++ b.toList ++ r)

/-- The new arrays (MeshingVoronoiMesher.cpp:387-408). -/
def appendSeeds (seeds added : List SeedRec) : Option (List SeedRec) :=
  if 0 < added.length then
    match copyInto seeds 0 (SeedBuf.new (seeds.length + added.length)) with
    | none => none
    | some b =>
      match copyInto added seeds.length b with
      | none => none
      | some b => b.take (seeds.length + added.length)
  else some seeds

/-- `ensure_sharp_edge_spheres_are_Delaunay` (MeshingVoronoiMesher.cpp:55-447); `fuel` sweeps of the Lipschitz pass (76-85). -/
noncomputable def ensureDelaunay (seeds : List SeedRec) (F : Features) (L : ℝ) (fuel : Nat) (vs : Nat → Bool → List (Nat → ℝ)) (ys : Nat → Bool → List (ℝ × ℝ)) : Option (List SeedRec) :=
  match meshTree seeds.length seeds, featureTrees F with
  | some T, some FT =>
    match lipschitzSeeds L fuel T seeds with
    | none => none
    | some xs =>
      match edgeSeeds T xs FT F L vs ys F.edges 0 with
      | none => none
      | some added => appendSeeds xs added
  | _, _ => none

end VoroCrust
