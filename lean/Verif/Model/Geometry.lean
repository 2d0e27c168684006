import Verif.Model.Adjust

/-! # Model of the projections and normals of `MeshingGeometricalMethods`

Exact real arithmetic.  `0 / 0` is not a number in the code: comparisons with it are false, and it is `none` here.
-/

namespace VoroCrust

open Classical

/-! ## The component orthogonal to a basis -/

/-- `dot_product` (MeshingGeometricalMethods.cpp:262-272). -/
def dotDim (u v : Nat → ℝ) : Nat → ℝ
  | 0 => 0
  | n + 1 => dotDim u v n + u n * v n

/-- The subtraction loop (MeshingGeometricalMethods.cpp:243-246) over the basis and the components computed before. -/
noncomputable def subComps : List ((Nat → ℝ) × ℝ) → (Nat → ℝ) → (Nat → ℝ)
  | [], v => v
  | (b, c) :: bs, v => subComps bs fun d => v d - c * b d

/-- `get_normal_component` (MeshingGeometricalMethods.cpp:229-260, MeshingSpheresMethods.cpp:569-600,
MeshingSmartTree.cpp:1955-1986): the new vector, `norm`, and whether the return value is 0. -/
noncomputable def normalComponent (n : Nat) (basis : List (Nat → ℝ)) (v : Nat → ℝ) : (Nat → ℝ) × ℝ × Bool :=
  let w := subComps (basis.map fun b => (b, dotDim v b n)) v
  let norm := dotDim w w n
  if |norm| < 1e-10 then (w, norm, false) else (fun d => w d * (1 / Real.sqrt norm), 1 / Real.sqrt norm, true)

/-! ## Normals -/

/-- `dot_product` in dimension 3. -/
def dot3 (u v : V3) : ℝ := u 0 * v 0 + u 1 * v 1 + u 2 * v 2

/-- The vector product (MeshingGeometricalMethods.cpp:333-335). -/
def cross3 (u v : V3) : V3 := ![u 1 * v 2 - u 2 * v 1, u 2 * v 0 - u 0 * v 2, u 0 * v 1 - u 1 * v 0]

/-- `normalize_vector` (MeshingGeometricalMethods.cpp:274-287). -/
noncomputable def normalize3 (v : V3) : V3 × Bool :=
  if Real.sqrt (dot3 v v) < 1e-10 then (v, false) else (fun d => v d / Real.sqrt (dot3 v v), true)

/-- `get_3d_triangle_normal` (MeshingGeometricalMethods.cpp:318-347): the array written and the return value. -/
noncomputable def triNormal (c : Fin 3 → V3) : V3 × Bool :=
  let a := normalize3 fun d => c 1 d - c 0 d
  let b := normalize3 fun d => c 2 d - c 0 d
  if !a.2 || !b.2 then (fun _ => 0, false)
  else
    let n := cross3 a.1 b.1
    if |Real.sqrt (dot3 n n)| < 1e-10 then (n, false) else (fun d => n d / Real.sqrt (dot3 n n), true)

/-! ## Projections -/

/-- The point of the segment used by both projections (MeshingGeometricalMethods.cpp:390-405, 424-438). -/
noncomputable def clampPoint (p a b : V3) : Option V3 :=
  let w : V3 := fun d => b d - a d
  if dot3 w w = 0 then none
  else
    let u := dot3 (fun d => p d - a d) w / dot3 w w
    let u := if u < 0 then 0 else u
    let u := if u > 1 then 1 else u
    some fun d => a d + u * (b d - a d)

/-- `project_to_3d_line_segment` (MeshingGeometricalMethods.cpp:420-444). -/
noncomputable def projSegment (p a b : V3) : Option (V3 × ℝ) := (clampPoint p a b).map fun q => (q, dist3 p q)

/-- `project_to_3d_line` (MeshingGeometricalMethods.cpp:446-459). -/
noncomputable def projLine (p o e : V3) : V3 × ℝ :=
  let u := dot3 (fun d => p d - o d) e
  let q : V3 := fun d => o d + u * e d
  (q, dist3 p q)

/-- The projection to the plane (MeshingGeometricalMethods.cpp:353-357). -/
noncomputable def planeFoot (p : V3) (c : Fin 3 → V3) : V3 :=
  let n := (triNormal c).1
  fun d => p d + dot3 (fun d => c 0 d - p d) n * n d

/-- `im` (MeshingGeometricalMethods.cpp:364). -/
def prev3 (i : Fin 3) : Fin 3 := if i = 0 then 2 else i - 1

/-- `ip` (MeshingGeometricalMethods.cpp:363). -/
def next3 (i : Fin 3) : Fin 3 := if i = 2 then 0 else i + 1

/-- The loop computing `in_triangle` (MeshingGeometricalMethods.cpp:361-380) for the remaining `i`. -/
noncomputable def insideLoop (c : Fin 3 → V3) (n q : V3) : List (Fin 3) → Bool
  | [] => true
  | i :: is =>
    let m := triNormal (Function.update c (prev3 i) q)
    if m.2 then if dot3 m.1 n < -1e-10 then false else insideLoop c n q is
    else insideLoop c n q is

/-- The loop over the edges (MeshingGeometricalMethods.cpp:389-415): closest distance (`none` for `DBL_MAX`) and point so far. -/
noncomputable def edgeLoop (p : V3) (c : Fin 3 → V3) : List (Fin 3) → Option ℝ × V3 → Option ℝ × V3
  | [], s => s
  | i :: is, s =>
    match clampPoint p (c i) (c (next3 i)) with
    | none => edgeLoop p c is s
    | some a =>
      match s.1 with
      | none => edgeLoop p c is (some (dist3 a p), a)
      | some h => edgeLoop p c is (if dist3 a p < h then (some (dist3 a p), a) else s)

/-- `project_to_3d_triangle` (MeshingGeometricalMethods.cpp:349-418): `q` and `proj_dist`. -/
noncomputable def projTriangle (p : V3) (c : Fin 3 → V3) : V3 × ℝ :=
  let q := planeFoot p c
  if insideLoop c (triNormal c).1 q [0, 1, 2] then (q, dist3 p q)
  else
    let q := (edgeLoop p c [0, 1, 2] (none, q)).2
    (q, dist3 p q)

end VoroCrust
