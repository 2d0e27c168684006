import Verif.Model.KdTree
import Verif.Model.Rounding
import Mathlib.Order.WithBot

/-!
# Model of the kd-tree queries

`closest_distance` is a `WithTop ℝ`; `⊤` is the value `DBL_MAX` used by all callers to mean "no bound"
(`DBL_MAX * DBL_MAX` is `+inf`, so every finite squared distance passes the test).
-/

namespace VoroCrust

open Classical

/-- `a < b` on finite doubles. -/
noncomputable def realLt (a b : ℝ) : Bool := decide (a < b)

/-- `double dst_sq(0.0); for idim: dx = x[idim] - p[idim]; dst_sq += dx * dx;`
(MeshingSmartTree.cpp:2250-2255 and all other query functions), every operation rounded. -/
noncomputable def dstSq (ρ : Rounding) (x p : Nat → ℝ) : Nat → ℝ
  | 0 => 0
  | d + 1 => ρ.rnd (dstSq ρ x p d + ρ.rnd (ρ.rnd (x d - p d) * ρ.rnd (x d - p d)))

/-- `sqrt(dst_sq)` (MeshingSmartTree.cpp:2261, MeshingVoronoiMesher.cpp:2901). -/
noncomputable def dstOf (ρ : Rounding) (x p : Nat → ℝ) (dim : Nat) : ℝ := ρ.rnd (Real.sqrt (dstSq ρ x p dim))

/-- `dst_sq < closest_distance * closest_distance` (MeshingSmartTree.cpp:2257). -/
def belowSq (ρ : Rounding) (d2 : ℝ) : WithTop ℝ → Prop
  | none => True
  | some b => d2 < ρ.rnd (b * b)

/-- `closest_distance == DBL_MAX || x[d] + closest_distance > p[d]` (MeshingSmartTree.cpp:2268-2276, 2295-2296). -/
def reachRight (ρ : Rounding) (x p : ℝ) : WithTop ℝ → Prop
  | none => True
  | some b => p < ρ.rnd (x + b)

/-- `closest_distance == DBL_MAX || x[d] - closest_distance < p[d]` (MeshingSmartTree.cpp:2268-2277, 2286-2287). -/
def reachLeft (ρ : Rounding) (x p : ℝ) : WithTop ℝ → Prop
  | none => True
  | some b => ρ.rnd (x - b) < p

/-- `MeshingSmartTree::kd_tree_get_closest_seed` and `kd_tree_get_closest_non_smooth_*`
(MeshingSmartTree.cpp:2166-2237, 2239-2307, 2309-2379, 2381-2985, 2987-3059).  The overloads differ in
the test that makes a node eligible (marks, self exclusion, maximum index, exclusion list, smoothness
of normals); all of them depend only on the node and the query, and are the parameter `elig`.
The result pair is `(closest_seed, closest_distance)`; `none` = out-of-range access (or out of fuel;
the theorems show that `num` is enough). -/
noncomputable def closestSmart (ρ : Rounding) (P : PointStore ℝ) (ln : Links) (elig : Nat → Bool) (x : Nat → ℝ) :
    Nat → Nat → Nat → Nat × WithTop ℝ → Option (Nat × WithTop ℝ)
  | 0, _, _, _ => none
  | fuel + 1, d, i, r =>
    if i < P.num ∧ d < P.dim then
      let r := if elig i = true ∧ belowSq ρ (dstSq ρ x (P.pts i) P.dim) r.2
        then (i, ((dstOf ρ x (P.pts i) P.dim : ℝ) : WithTop ℝ)) else r
      let d' := nextDim P.dim d
      let checkRight := ln.right i ≠ i ∧ reachRight ρ (x d) (P.pts i d) r.2
      let checkLeft := ln.left i ≠ i ∧ reachLeft ρ (x d) (P.pts i d) r.2
      if checkRight ∧ checkLeft then
        if P.pts i d < x d then
          match closestSmart ρ P ln elig x fuel d' (ln.right i) r with
          | none => none
          | some r => if reachLeft ρ (x d) (P.pts i d) r.2 then closestSmart ρ P ln elig x fuel d' (ln.left i) r else some r
        else
          match closestSmart ρ P ln elig x fuel d' (ln.left i) r with
          | none => none
          | some r => if reachRight ρ (x d) (P.pts i d) r.2 then closestSmart ρ P ln elig x fuel d' (ln.right i) r else some r
      else if checkRight then closestSmart ρ P ln elig x fuel d' (ln.right i) r
      else if checkLeft then closestSmart ρ P ln elig x fuel d' (ln.left i) r
      else some r
    else none

/-- `MeshingVoronoiMesher::kd_tree_get_closest_seed`, three overloads (MeshingVoronoiMesher.cpp:2886-2925,
2927-2968, 2970-3012): compares square roots, always visits the right side first.  `elig` is
`dot >= 0.0` and `tree_point_index != node_index`. -/
noncomputable def closestMesher (ρ : Rounding) (P : PointStore ℝ) (ln : Links) (elig : Nat → Bool) (x : Nat → ℝ) :
    Nat → Nat → Nat → Nat × WithTop ℝ → Option (Nat × WithTop ℝ)
  | 0, _, _, _ => none
  | fuel + 1, d, i, r =>
    if i < P.num ∧ d < P.dim then
      let r := if elig i = true ∧ ((dstOf ρ x (P.pts i) P.dim : ℝ) : WithTop ℝ) < r.2
        then (i, ((dstOf ρ x (P.pts i) P.dim : ℝ) : WithTop ℝ)) else r
      let d' := nextDim P.dim d
      match (if ln.right i ≠ i ∧ reachRight ρ (x d) (P.pts i d) r.2
          then closestMesher ρ P ln elig x fuel d' (ln.right i) r else some r) with
      | none => none
      | some r =>
        if ln.left i ≠ i ∧ reachLeft ρ (x d) (P.pts i d) r.2
          then closestMesher ρ P ln elig x fuel d' (ln.left i) r else some r
    else none

/-- The public closest-point query: start at the root with the incoming bound
(MeshingSmartTree.cpp:631-696, MeshingVoronoiMesher.cpp:2706-2743).  With an empty tree the overloads
without the `_num_points == 0` guard read `_points[_tree_origin]` out of range: `none`. -/
noncomputable def closestQuery (ρ : Rounding) (P : PointStore ℝ) (ln : Links) (elig : Nat → Bool) (x : Nat → ℝ)
    (mesher : Bool) (bound : WithTop ℝ) : Option (Nat × WithTop ℝ) :=
  match ln.origin with
  | none => none
  | some o =>
    if mesher then closestMesher ρ P ln elig x P.num 0 o (P.num, bound)
    else closestSmart ρ P ln elig x P.num 0 o (P.num, bound)

/-- `kd_tree_get_seeds_in_sphere` (MeshingSmartTree.cpp:2096-2129, 2131-2164;
MeshingVoronoiMesher.cpp:3014-3060): the list of entries appended, in order.  `accept` is the test on the
computed squared distance, `dst_sq < (1 + 2.0E-6) * r * r` or `dst_sq < r * r + DST_TOL`; `elig` the
mark / `max_index` test.  The growth of the output array is `addEntry` (C01). -/
noncomputable def seedsInSphere (ρ : Rounding) (P : PointStore ℝ) (ln : Links) (elig : Nat → Bool) (accept : ℝ → Prop)
    (x : Nat → ℝ) (r : ℝ) : Nat → Nat → Nat → Option (List Nat)
  | 0, _, _ => none
  | fuel + 1, d, i =>
    if i < P.num ∧ d < P.dim then
      let here := if elig i = true ∧ accept (dstSq ρ x (P.pts i) P.dim) then [i] else []
      let d' := nextDim P.dim d
      match (if ln.right i ≠ i ∧ P.pts i d < ρ.rnd (x d + r) then seedsInSphere ρ P ln elig accept x r fuel d' (ln.right i)
          else some []) with
      | none => none
      | some rs =>
        match (if ln.left i ≠ i ∧ ρ.rnd (x d - r) < P.pts i d then seedsInSphere ρ P ln elig accept x r fuel d' (ln.left i)
            else some []) with
        | none => none
        | some ls => some (here ++ rs ++ ls)
    else none

/-- `get_tree_points_in_sphere` (MeshingSmartTree.cpp:698-705, MeshingVoronoiMesher.cpp:2746-2762). -/
noncomputable def sphereQuery (ρ : Rounding) (P : PointStore ℝ) (ln : Links) (elig : Nat → Bool) (accept : ℝ → Prop)
    (x : Nat → ℝ) (r : ℝ) : Option (List Nat) :=
  match ln.origin with
  | none => none
  | some o => seedsInSphere ρ P ln elig accept x r P.num 0 o

/-- `dst_sq < (1 + 2.0E-6) * r * r` (MeshingSmartTree.cpp:2115, MeshingVoronoiMesher.cpp:3029), exact. -/
def inSphereTest (r : ℝ) (d2 : ℝ) : Prop := d2 < (1 + 2e-6) * r * r

/-- `dst_sq < r * r + DST_TOL`, `DST_TOL = 1E-6` (MeshingSmartTree.cpp:40, 2150), exact. -/
def inSphereTestAbs (r : ℝ) (d2 : ℝ) : Prop := d2 < r * r + 1e-6

end VoroCrust
