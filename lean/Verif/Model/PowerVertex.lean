import Verif.Model.Geometry
import Verif.Model.Spheres
import Verif.Model.Memory

/-! # Model of the power vertex of several spheres

`MeshingGeometricalMethods::get_power_vertex` for `m` spheres in dimension `n`; `MeshingSpheresMethods::get_power_vertex` (MeshingSpheresMethods.cpp:459-566) is the same
code with the radius kept behind the coordinates.  Exact real arithmetic.  The random directions are a parameter: any numbers.
-/

namespace VoroCrust

open Classical

/-- The unit vector with index `i` (MeshingGeometricalMethods.cpp:127-132, 199-200). -/
def axis (i : Nat) : Nat → ℝ := fun d => if d = i then 1 else 0

/-- The direction of a spoke (MeshingGeometricalMethods.cpp:146-151): the sum over the last `l` of the basis vectors starting with `k`. -/
def spokeDir (dart : Nat → ℝ) (b : Nat → Nat → ℝ) (k : Nat) : Nat → Nat → ℝ
  | 0 => fun _ => 0
  | l + 1 => fun d => spokeDir dart b k l d + dart l * b (k + l) d

/-- Working copy of the spheres, the basis and the start of the spoke (MeshingGeometricalMethods.cpp:120-138). -/
structure PvState where
  c : Nat → Nat → ℝ
  r : Nat → ℝ
  b : Nat → Nat → ℝ
  x : Nat → ℝ

/-- `dot_1` (MeshingGeometricalMethods.cpp:157-163). -/
noncomputable def pvDot1 (n : Nat) (s : PvState) (i : Nat) : ℝ :=
  let q := powerVertexAt (s.c 0) (s.r 0) (s.c i) (s.r i) (distance n (s.c 0) (s.c i))
  dotDim (fun d => q d - s.x d) (fun d => s.c i d - s.c 0 d) n

/-- `dot_2` (MeshingGeometricalMethods.cpp:164). -/
noncomputable def pvDot2 (n : Nat) (s : PvState) (dir : Nat → ℝ) (i : Nat) : ℝ := dotDim dir (fun d => s.c i d - s.c 0 d) n

/-- The trimming loop (MeshingGeometricalMethods.cpp:153-174): `alpha_min` (`none` is `DBL_MAX`) and `neighbor_index`.  A centre equal to the first makes `dot_1` a NaN,
but then `dot_2` is zero and the point is skipped. -/
noncomputable def pvTrim (n : Nat) (s : PvState) (dir : Nat → ℝ) : List Nat → Option ℝ × Nat → Option ℝ × Nat
  | [], a => a
  | i :: is, a =>
    if |pvDot2 n s dir i| < 1e-10 then pvTrim n s dir is a
    else
      let α := pvDot1 n s i / pvDot2 n s dir i
      match a.1 with
      | none => pvTrim n s dir is (some α, i)
      | some β => if |α| < |β| then pvTrim n s dir is (some α, i) else pvTrim n s dir is a

/-- The search for a further basis vector (MeshingGeometricalMethods.cpp:197-204): the first axis with a component orthogonal to `bs`, or what the last one left. -/
noncomputable def pickBasis (n : Nat) (bs : List (Nat → ℝ)) : List Nat → (Nat → ℝ) → (Nat → ℝ)
  | [], v => v
  | i :: is, _ =>
    let w := normalComponent n bs (axis i)
    if w.2.1 > 0.1 then w.1 else pickBasis n bs is w.1

/-- The loop over the remaining basis vectors (MeshingGeometricalMethods.cpp:195-206). -/
noncomputable def fillBasis (n : Nat) (v : Nat → ℝ) : List Nat → (Nat → Nat → ℝ) → (Nat → Nat → ℝ)
  | [], b => b
  | j :: js, b => fillBasis n v js (upd b j (pickBasis n ((List.range j).map b) (List.range n) v))

/-- One spoke (MeshingGeometricalMethods.cpp:141-206, the exchange 185-186); `none` is the return value `false`. -/
noncomputable def pvSpoke (n m : Nat) (dart : Nat → ℝ) (k : Nat) (s : PvState) : Option PvState :=
  let dir := spokeDir dart s.b k (n - k)
  match pvTrim n s dir (List.range' (k + 1) (m - (k + 1))) (none, 0) with
  | (some α, p + 1) =>
    let x := fun d => s.x d + α * dir d
    let c := swapAt s.c (p + 1) (k + 1)
    let r := swapAt s.r (p + 1) (k + 1)
    let w := (normalComponent n ((List.range k).map s.b) fun d => c (k + 1) d - c 0 d).1
    some { c := c, r := r, b := fillBasis n w (List.range' (k + 1) (n - (k + 1))) (upd s.b k w), x := x }
  | _ => none

/-- The spokes from `k` on (MeshingGeometricalMethods.cpp:141). -/
noncomputable def pvSpokes (n m : Nat) (dart : Nat → Nat → ℝ) : Nat → Nat → PvState → Option PvState
  | 0, _, s => some s
  | l + 1, k, s =>
    match pvSpoke n m (dart k) k s with
    | none => none
    | some s' => pvSpokes n m dart l (k + 1) s'

/-- The final projection (MeshingGeometricalMethods.cpp:212-217). -/
noncomputable def pvProject (n : Nat) (b : Nat → Nat → ℝ) : List Nat → (Nat → ℝ) → (Nat → ℝ)
  | [], v => v
  | j :: js, v => pvProject n b js fun d => v d - dotDim v (b j) n * b j d

/-- `get_power_vertex` (MeshingGeometricalMethods.cpp:116-227).  Outer `none`: no sphere (`num_points - 1` wraps around) or more than `n + 1` spheres (the basis is indexed
out of range); inner `none`: the return value is `false` and `pv` is not written. -/
noncomputable def powerVertexN (n m : Nat) (c : Nat → Nat → ℝ) (r : Nat → ℝ) (dart : Nat → Nat → ℝ) : Option (Option (Nat → ℝ)) :=
  if m = 0 ∨ n + 1 < m then none
  else
    match pvSpokes n m dart (m - 1) 0 { c := c, r := r, b := axis, x := c 0 } with
    | none => some none
    | some s =>
      let v := pvProject n s.b (List.range' (m - 1) (n - (m - 1))) fun d => s.x d - s.c 0 d
      some (some fun d => s.c 0 d + v d)

end VoroCrust
