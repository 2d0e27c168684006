import Verif.Model.Vps
import Verif.Model.Random
import Mathlib.Analysis.SpecialFunctions.Trigonometric.Basic

/-!
# Model of the integration over a cell by MeshingVoroSpokes (MeshingVoroSpokes.cpp:1543-1831)

The spokes and their ends are those of `get_Voronoi_neighbors` (Model/Spokes.lean).  The function that is integrated, `evaluate_vps` of the cell or its estimate of the error, is a parameter `g`.  Exact real
arithmetic with the constant `PI` taken as the number pi; the factorial in `spherical_integration_constant` is computed modulo 2^64.  `none` is a division by zero, a value that is not a number, or fuel
used up.
-/

namespace VoroCrust

open Classical

/-- `while (k > 1) { k--; gamma *= k; }` for `size_t gamma` (MeshingVoroSpokes.cpp:1551-1554). -/
def gammaEven : Nat → Nat → Nat
  | k + 2, g => gammaEven (k + 1) (g * (k + 1) % 2 ^ 64)
  | _, g => g

/-- `while (k > 2) { k -= 2; gamma *= (0.5 * k); }` for `double gamma` (MeshingVoroSpokes.cpp:1561-1564). -/
noncomputable def gammaOdd : Nat → ℝ → ℝ
  | k + 3, g => gammaOdd (k + 1) (g * (0.5 * ((k + 1 : Nat) : ℝ)))
  | _, g => g

/-- `spherical_integration_constant` (MeshingVoroSpokes.cpp:1543-1569). -/
noncomputable def sphereConstant (n : Nat) : Option ℝ :=
  if n / 2 * 2 = n then
    if gammaEven (n / 2) (n / 2) = 0 then none else some (n * Real.pi ^ (n / 2) / (gammaEven (n / 2) (n / 2) : ℝ))
  else some (n * Real.pi ^ (n / 2) / gammaOdd n (0.5 * n))

/-- `umin` for a spoke that leaves the box (MeshingVoroSpokes.cpp:1593-1606): the first `d` coordinates. -/
noncomputable def boxExit (lo hi x u : Nat → ℝ) : Nat → WithTop ℝ
  | 0 => ⊤
  | d + 1 =>
    if u d > 1e-10 then min (boxExit lo hi x u d) (((hi d - x d) / u d : ℝ) : WithTop ℝ)
    else if u d < -1e-10 then min (boxExit lo hi x u d) (((lo d - x d) / u d : ℝ) : WithTop ℝ)
    else boxExit lo hi x u d

/-- `umin` for a spoke that ends at a neighbour (MeshingVoroSpokes.cpp:1615-1628). -/
noncomputable def boxClip (lo hi x e : Nat → ℝ) : Nat → ℝ
  | 0 => 1
  | d + 1 =>
    let m := boxClip lo hi x e d
    let m := if e d < lo d then min m ((x d - lo d) / (x d - e d)) else m
    if e d > hi d then min m ((hi d - x d) / (e d - x d)) else m

/-- The end of a spoke and its length (MeshingVoroSpokes.cpp:1588-1646); `far` is `spoke_neighbors[ispoke] == SIZE_MAX`, and `e` is then the direction. -/
noncomputable def spokeEnd (n : Nat) (lo hi x : Nat → ℝ) (far : Bool) (e : Nat → ℝ) : Option ((Nat → ℝ) × ℝ) :=
  if far then
    match boxExit lo hi x e n with
    | none => none
    | some u => some (fun d => x d + u * e d, u)
  else
    let u := boxClip lo hi x e n
    let y := if u < 1 then fun d => x d + u * (e d - x d) else e
    some (y, Real.sqrt (sumDim (fun d => (y d - x d) * (y d - x d)) n))

/-- `spoke_order` (MeshingVoroSpokes.cpp:1658): at least one. -/
def atLeastOne (order : Nat) : Nat := if order = 0 then order + 1 else order

/-- The point at distance `r` on a spoke (MeshingVoroSpokes.cpp:1669). -/
noncomputable def spokePoint (x e : Nat → ℝ) (len r : ℝ) : Nat → ℝ := fun d => x d + r / len * (e d - x d)

/-- The coefficients of the polynomial through the values along the spoke (MeshingVoroSpokes.cpp:1660-1688); `m` is `num_points`.  For a spoke of length zero the points are not numbers. -/
noncomputable def spokeCoef (g : (Nat → ℝ) → ℝ) (m : Nat) (x e : Nat → ℝ) (len : ℝ) : Option (Nat → Dbl) :=
  if len = 0 then none
  else lsSolve m m (fun i j => (i * (len / (m - 1 : ℝ))) ^ j) (fun i => g (spokePoint x e len (i * (len / (m - 1 : ℝ))))) fun _ => none

/-- The integral of the polynomial up to `t * spoke_length`, from the seed or from half of the spoke on (MeshingVoroSpokes.cpp:1690-1696, 1768-1773, 1782-1788): the first terms. -/
noncomputable def spokeSum (n : Nat) (half : Bool) (c : Nat → Dbl) (len t : ℝ) : Nat → Dbl
  | 0 => some 0
  | j + 1 =>
    let v := dadd (spokeSum n half c len t j) ((c j).map fun a => a * (t * len) ^ (j + n) / ((j + n : Nat) : ℝ))
    if half then dsub v ((c j).map fun a => a * (0.5 * len) ^ (j + n) / ((j + n : Nat) : ℝ)) else v

/-- `spoke_weights[ispoke]` (MeshingVoroSpokes.cpp:1648-1699). -/
noncomputable def spokeWeight (n : Nat) (half : Bool) (g : (Nat → ℝ) → ℝ) (order : Nat) (x e : Nat → ℝ) (len : ℝ) : Option ℝ :=
  match spokeCoef g (atLeastOne order + 1) x e len, sphereConstant n with
  | some c, some s =>
    match spokeSum n half c len 1 (atLeastOne order + 1) with
    | none => none
    | some v => some (v * s)
  | _, _ => none

/-- The weights of all spokes: `(far, end)` for each. -/
noncomputable def spokeWeights (n : Nat) (half : Bool) (g : (Nat → ℝ) → ℝ) (order : Nat) (lo hi x : Nat → ℝ) : List (Bool × (Nat → ℝ)) → Option (List ℝ)
  | [] => some []
  | s :: ss =>
    match spokeEnd n lo hi x s.1 s.2, spokeWeights n half g order lo hi x ss with
    | some (e, len), some ws =>
      match spokeWeight n half g order x e len with
      | none => none
      | some w => some (w :: ws)
    | _, _ => none

/-- `integration_val` (MeshingVoroSpokes.cpp:1705-1711). -/
noncomputable def integrateVps (n : Nat) (half : Bool) (g : (Nat → ℝ) → ℝ) (order : Nat) (lo hi x : Nat → ℝ) (spokes : List (Bool × (Nat → ℝ))) : Option ℝ :=
  match spokeWeights n half g order lo hi x spokes with
  | none => none
  | some ws => if spokes.length = 0 then none else some ((ws.map fun w => if w < 0 then 0 else w).sum / spokes.length)

/-- The binary search along the spoke (MeshingVoroSpokes.cpp:1775-1806): `F t` is `val` before the division by `val_max`.  If `val_max` is zero the quotient is infinite or not a number and is never
accepted. -/
noncomputable def spokeSearch (F : ℝ → ℝ) (valMax u : ℝ) : Nat → ℝ → ℝ → Option ℝ
  | 0, _, _ => none
  | fuel + 1, lo, hi =>
    let t := 0.5 * (lo + hi)
    let v := F t / valMax
    if valMax ≠ 0 ∧ |v - u| < 1e-6 then some t
    else if u < v then spokeSearch F valMax u fuel lo t
    else spokeSearch F valMax u fuel t hi

/-- The place on the selected spoke of the sample that is returned (MeshingVoroSpokes.cpp:1729-1806), as a fraction of the spoke; the case that the integral is below 1E-10 (1722-1727) is left out.  If
the coefficients are not numbers the search does not end. -/
noncomputable def spokeSample (n : Nat) (half : Bool) (g : (Nat → ℝ) → ℝ) (order : Nat) (x e : Nat → ℝ) (len u : ℝ) (fuel : Nat) : Option ℝ :=
  match spokeCoef g (atLeastOne order + 1) x e len with
  | none => none
  | some c =>
    match spokeSum n half c len 1 (atLeastOne order + 1) with
    | none => none
    | some valMax => spokeSearch (fun t => (spokeSum n half c len t (atLeastOne order + 1)).getD 0) valMax u fuel (if half then 0.5 else 0) 1

end VoroCrust
