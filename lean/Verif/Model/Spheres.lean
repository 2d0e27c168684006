import Verif.Model.KdQuery

/-!
# Model of `MeshingSpheresMethods` (coverage, Lipschitz condition, overlaps, slivers) and of the power vertex

Exact real arithmetic.  A sphere is a tree point with three coordinates followed by the radius, which the code
reads as attribute 0.  Sphere trees never set `_marked_only`, so every node is eligible.
-/

namespace VoroCrust

open Classical

/-- `get_tree_point_attrib(i, 0)` (MeshingSmartTree.cpp:518-521). -/
def radius (P : PointStore ℝ) (i : Nat) : ℝ := P.pts i P.dim

/-- `MeshingGeometricalMethods::distance` (MeshingGeometricalMethods.cpp:67-79). -/
noncomputable def distance (n : Nat) (x y : Nat → ℝ) : ℝ := dstOf Rounding.exact y x n

/-! ## Coverage -/

/-- `beta` of `point_covered` (MeshingSpheresMethods.cpp:52-53, 64-65). -/
noncomputable def coverBeta (α : ℝ) : ℝ := if α > 1e-10 then Real.sqrt (1 - α * α) else 1

/-- The test `h < (beta + 1E-8) * r + 1E-8` (MeshingSpheresMethods.cpp:55, 85, 131, 181). -/
def inCover (β : ℝ) (h r : ℝ) : Prop := h < (β + 1e-8) * r + 1e-8

/-- `point_covered` by one sphere (MeshingSpheresMethods.cpp:50-57). -/
noncomputable def pointCoveredBy (x : Nat → ℝ) (sphere : Nat → ℝ) (α : ℝ) : Bool :=
  decide (inCover (coverBeta α) (distance 3 x sphere) (sphere 3))

/-- Closest sphere and its distance (MeshingSpheresMethods.cpp:67-70, 111-113, 157-160, 334-336); no answer
(`DBL_MAX`) and a bad index are kept apart. -/
noncomputable def closestSphere (P : PointStore ℝ) (ln : Links) (x : Nat → ℝ) : Option (Nat × ℝ) :=
  match closestQuery Rounding.exact P ln (fun _ => true) x false ⊤ with
  | some (c, some d) => if c < P.num then some (c, d) else none
  | _ => none

/-- `get_tree_points_in_sphere` of the sphere tree. -/
noncomputable def spheresNear (P : PointStore ℝ) (ln : Links) (x : Nat → ℝ) (R : ℝ) : Option (List Nat) :=
  sphereQuery Rounding.exact P ln (fun _ => true) (inSphereTest R) x R

/-- `point_covered` by a tree of spheres (MeshingSpheresMethods.cpp:59-96). -/
noncomputable def pointCovered (P : PointStore ℝ) (ln : Links) (L α : ℝ) (x : Nat → ℝ) : Option Bool :=
  if P.num = 0 then some false
  else
    match closestSphere P ln x with
    | none => none
    | some (c, d) =>
      match spheresNear P ln x ((radius P c + L * d) / (1 - L)) with
      | none => none
      | some l => some (l.any fun s => decide (inCover (coverBeta α) (distance 3 x (P.pts s)) (radius P s)))

/-- The search radius of `edge_covered`, `face_covered` and `get_overlapping_spheres`
(MeshingSpheresMethods.cpp:118-119, 166-167, 341-342). -/
noncomputable def doubleReach (L r : ℝ) : ℝ := r * (1 + L) / (1 - L) + r

/-- `edge_covered` (MeshingSpheresMethods.cpp:99-140). -/
noncomputable def edgeCovered (P : PointStore ℝ) (ln : Links) (L α : ℝ) (A B : Nat → ℝ) : Option Bool :=
  if P.num = 0 then some false
  else
    match closestSphere P ln (fun d => 0.5 * (A d + B d)) with
    | none => none
    | some (c, d) =>
      match spheresNear P ln (fun d => 0.5 * (A d + B d)) (doubleReach L (radius P c + L * d)) with
      | none => none
      | some l => some (l.any fun s =>
          decide (inCover (Real.sqrt (1 - α * α)) (distance 3 A (P.pts s)) (radius P s)) &&
          decide (inCover (Real.sqrt (1 - α * α)) (distance 3 B (P.pts s)) (radius P s)))

/-- `face_covered` (MeshingSpheresMethods.cpp:142-206); the block under `if (false)` is dead. -/
noncomputable def faceCovered (P : PointStore ℝ) (ln : Links) (L α : ℝ) (A B C : Nat → ℝ) : Option Bool :=
  if P.num = 0 then some false
  else
    match closestSphere P ln (fun d => (A d + B d + C d) / 3) with
    | none => none
    | some (c, d) =>
      match spheresNear P ln (fun d => (A d + B d + C d) / 3) (doubleReach L (radius P c + L * d)) with
      | none => none
      | some l => some (l.any fun s =>
          decide (inCover (Real.sqrt (1 - α * α)) (distance 3 A (P.pts s)) (radius P s)) &&
          decide (inCover (Real.sqrt (1 - α * α)) (distance 3 B (P.pts s)) (radius P s)) &&
          decide (inCover (Real.sqrt (1 - α * α)) (distance 3 C (P.pts s)) (radius P s)))

/-! ## Lipschitz condition, exhaustive -/

/-- One pair of `impose_lipschitz_continuity_brute` (MeshingSpheresMethods.cpp:226-241).  The flag is `shrunk` (and
`done == false`). -/
noncomputable def lipPair (L : ℝ) (i j : Nat) (s : PointStore ℝ × Bool) : PointStore ℝ × Bool :=
  let rl := min (radius s.1 i) (radius s.1 j) + L * distance 3 (s.1.pts i) (s.1.pts j)
  let s1 := if rl < radius s.1 i then (setAttr s.1 i 0 rl, true) else s
  if rl < radius s.1 j then (setAttr s1.1 j 0 rl, true) else s1

/-- The double loop `for i, for j > i` (MeshingSpheresMethods.cpp:221-224). -/
def pairsUp (n : Nat) : List (Nat × Nat) :=
  (List.range n).flatMap fun i => (List.range n).filterMap fun j => if i < j then some (i, j) else none

/-- One pass over the pairs. -/
noncomputable def lipPairs (L : ℝ) : List (Nat × Nat) → PointStore ℝ × Bool → PointStore ℝ × Bool
  | [], s => s
  | p :: ps, s => lipPairs L ps (lipPair L p.1 p.2 s)

/-- The `while (true)` loop (MeshingSpheresMethods.cpp:218-244); second component: `shrunk`.  `none`: fuel exhausted. -/
noncomputable def lipBruteLoop (L : ℝ) : Nat → PointStore ℝ → Bool → Option (PointStore ℝ × Bool)
  | 0, _, _ => none
  | fuel + 1, P, shrunk =>
    let s := lipPairs L (pairsUp P.num) (P, false)
    if s.2 then lipBruteLoop L fuel s.1 true else some (s.1, shrunk)

/-- `impose_lipschitz_continuity_brute` (MeshingSpheresMethods.cpp:209-248). -/
noncomputable def lipBrute (L : ℝ) (fuel : Nat) (P : PointStore ℝ) : Option (PointStore ℝ × Bool) := lipBruteLoop L fuel P false

/-! ## Lipschitz condition, neighbourhood-limited -/

/-- The loop over the neighbours of sphere `i` (MeshingSpheresMethods.cpp:283-303): new radius and `sphere_shrunk`/`!done`. -/
noncomputable def lipShrink (P : PointStore ℝ) (L : ℝ) (i : Nat) : List Nat → ℝ × Bool → ℝ × Bool
  | [], s => s
  | j :: js, s =>
    if j = i then lipShrink P L i js s
    else if s.1 > radius P j + L * distance 3 (P.pts i) (P.pts j) then
      lipShrink P L i js (radius P j + L * distance 3 (P.pts i) (P.pts j), true)
    else lipShrink P L i js s

/-- The loop over the spheres in the order `I` (MeshingSpheresMethods.cpp:271-306); state `new_radii` and the flag. -/
noncomputable def lipRound (P : PointStore ℝ) (ln : Links) (L : ℝ) : List Nat → (Nat → ℝ) × Bool → Option ((Nat → ℝ) × Bool)
  | [], s => some s
  | i :: is, s =>
    match spheresNear P ln (P.pts i) (2 * radius P i) with
    | none => none
    | some l => lipRound P ln L is (upd s.1 i (lipShrink P L i l (s.1 i, s.2)).1, (lipShrink P L i l (s.1 i, s.2)).2)

/-- Writing the radii back (MeshingSpheresMethods.cpp:308-311). -/
def writeRadii (new : Nat → ℝ) : List Nat → PointStore ℝ → PointStore ℝ
  | [], P => P
  | i :: is, P => writeRadii new is (setAttr P i 0 (new i))

/-- The `while (true)` loop (MeshingSpheresMethods.cpp:267-315). -/
noncomputable def lipTreeLoop (ln : Links) (L : ℝ) (order : List Nat) : Nat → PointStore ℝ → (Nat → ℝ) → Bool → Option (PointStore ℝ × Bool)
  | 0, _, _, _ => none
  | fuel + 1, P, new, shrunk =>
    match lipRound P ln L order (new, false) with
    | none => none
    | some (new', ch) =>
      if ch then lipTreeLoop ln L order fuel (writeRadii new' (List.range P.num) P) new' true
      else some (writeRadii new' (List.range P.num) P, shrunk)

/-- `impose_lipschitz_continuity` (MeshingSpheresMethods.cpp:250-321).  `shrunk` is the incoming value of the flag, which
is not reset.  With no spheres the sort is called with `right = SIZE_MAX` and reads out of range. -/
noncomputable def lipTree (ln : Links) (L : ℝ) (fuel : Nat) (P : PointStore ℝ) (shrunk : Bool) : Option (PointStore ℝ × Bool) :=
  if P.num = 0 then none
  else
    match quicksort2 realLt P.num (fun i => -radius P i) (fun i => i) 0 (P.num - 1) with
    | none => none
    | some (_, I) => lipTreeLoop ln L ((List.range P.num).map I) fuel P (radius P) shrunk

/-! ## Overlapping spheres -/

/-- `overlapping_spheres(3, ...)` (MeshingGeometricalMethods.cpp:289-298). -/
def overlaps (x : Nat → ℝ) (rx : ℝ) (y : Nat → ℝ) (ry : ℝ) : Prop := distance 3 x y < rx + ry + 1e-10

/-- The fill loop of `get_overlapping_spheres` (MeshingSpheresMethods.cpp:358-368): the array has room for `cap` entries. -/
noncomputable def fillOverlaps (P : PointStore ℝ) (x : Nat → ℝ) (rx : ℝ) (cap : Nat) : List Nat → List Nat → Option (List Nat)
  | [], acc => some acc
  | s :: ss, acc =>
    if overlaps x rx (P.pts s) (radius P s) then
      if acc.length < cap then fillOverlaps P x rx cap ss (acc ++ [s]) else none
    else fillOverlaps P x rx cap ss acc

/-- The counting loop (MeshingSpheresMethods.cpp:348-355). -/
noncomputable def countOverlaps (P : PointStore ℝ) (x : Nat → ℝ) (rx : ℝ) : List Nat → Nat → Nat
  | [], n => n
  | s :: ss, n => countOverlaps P x rx ss (if overlaps x rx (P.pts s) (radius P s) then n + 1 else n)

/-- `get_overlapping_spheres` (MeshingSpheresMethods.cpp:323-373). -/
noncomputable def overlappingSpheres (P : PointStore ℝ) (ln : Links) (L : ℝ) (x : Nat → ℝ) (rx : ℝ) : Option (List Nat) :=
  if P.num = 0 then some []
  else
    match closestSphere P ln x with
    | none => none
    | some (c, d) =>
      match spheresNear P ln x (doubleReach L (if radius P c + L * d < rx then rx else radius P c + L * d)) with
      | none => none
      | some l => fillOverlaps P x rx (countOverlaps P x rx l 0) l []

/-! ## Slivers -/

/-- The triple loop `i < j < k` of `resolve_sliver` (MeshingSpheresMethods.cpp:386-393). -/
def triplesUp (n : Nat) : List (Nat × Nat × Nat) :=
  (List.range n).flatMap fun i => (List.range n).flatMap fun j => (List.range n).filterMap fun k =>
    if i < j ∧ j < k then some (i, j, k) else none

/-- State of the scan: `dr_min` (`⊤` = `DBL_MAX`), `sliver_sphere_index`, `sliver_sphere_radius`. -/
structure Sliver where
  drMin : WithTop ℝ
  index : Nat
  radius : ℝ

/-- One candidate sphere `l` (MeshingSpheresMethods.cpp:407-424).  `hm` is `fmin(hup, hlo)`; `none` is a NaN (the three
spheres do not meet): then `hmin > ...` and `dr < dr_min` are both false and the sphere is not taken. -/
noncomputable def sliverCandidate (rad : Nat → ℝ) (fixed : Nat → Bool) (t : Nat × Nat × Nat) (hm : Option ℝ) (l : Nat) (s : Sliver) : Sliver :=
  if fixed l then s
  else if l = t.1 ∨ l = t.2.1 ∨ l = t.2.2 then s
  else
    match hm with
    | none => s
    | some h =>
      if h > rad l - 1e-10 then s
      else if ((rad l - h * 0.95 : ℝ) : WithTop ℝ) < s.drMin then { drMin := ((rad l - h * 0.95 : ℝ) : WithTop ℝ), index := l, radius := h * 0.95 }
      else s

/-- The loop over `l` (MeshingSpheresMethods.cpp:405-425). -/
noncomputable def sliverLoop (rad : Nat → ℝ) (fixed : Nat → Bool) (t : Nat × Nat × Nat) (hm : Nat → Option ℝ) : List Nat → Sliver → Sliver
  | [], s => s
  | l :: ls, s => sliverLoop rad fixed t hm ls (sliverCandidate rad fixed t (hm l) l s)

/-- The loop over the triples. -/
noncomputable def sliverTriples (n : Nat) (rad : Nat → ℝ) (fixed : Nat → Bool) (hm : Nat × Nat × Nat → Nat → Option ℝ) :
    List (Nat × Nat × Nat) → Sliver → Sliver
  | [], s => s
  | t :: ts, s => sliverTriples n rad fixed hm ts (sliverLoop rad fixed t (hm t) (List.range n) s)

/-- `resolve_sliver` (MeshingSpheresMethods.cpp:375-433).  `hm t l` is the distance of the centre of sphere `l` to the
nearer of the two points common to the triple `t`, as computed by the power-vertex routine; it is an arbitrary function
here.  `r0` is the incoming value of `sliver_sphere_radius`. -/
noncomputable def resolveSliver (n : Nat) (rad : Nat → ℝ) (fixed : Nat → Bool) (hm : Nat × Nat × Nat → Nat → Option ℝ) (r0 : ℝ) : Sliver :=
  sliverTriples n rad fixed hm (triplesUp n) { drMin := ⊤, index := n, radius := r0 }

/-! ## Power vertex -/

/-- `get_power_vertex` (MeshingGeometricalMethods.cpp:98-114, MeshingSpheresMethods.cpp:449-453): a point of the line of
centres; `h` is the distance of the centres. -/
noncomputable def powerVertexAt (ci : Nat → ℝ) (ri : ℝ) (cj : Nat → ℝ) (rj h : ℝ) : Nat → ℝ :=
  fun d => ci d + ((h * h + ri * ri - rj * rj) / (2 * h)) * (cj d - ci d) / h

/-- `MeshingSpheresMethods::get_power_vertex` (MeshingSpheresMethods.cpp:436-456): `none` is the return value 1. -/
noncomputable def powerVertex (n : Nat) (si sj : Nat → ℝ) : Option (Nat → ℝ) :=
  if distance n si sj < 1e-10 then none else some (powerVertexAt si (si n) sj (sj n) (distance n si sj))

end VoroCrust
