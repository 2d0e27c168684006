import Verif.Model.Spokes
import Verif.Model.Basis
import Verif.Model.LeastSquares

/-!
# Model of the surrogate of MeshingVoroSpokes (MeshingVoroSpokes.cpp:334-363, 1330-1495, 1524-1542)

One function (`ifunc`) at a time: the loops over functions do the same for each.  Exact real arithmetic, `size_t` is unbounded; the value `DBL_MAX` of a singular cell is not modelled.  `none` is undefined
behaviour, a division by zero in a weight, or fuel used up.
-/

namespace VoroCrust

open Classical

/-- The state of the surrogate that the functions below read: `_vps_basis == Chebyshev`, `_use_total_order`, `_seeds`, `_f[i][ifunc]`, `_desired_order`, and the argument `num_spokes`. -/
structure VpsIn where
  cheb : Bool
  total : Bool
  P : PointStore ℝ
  ln : Links
  f : Nat → ℝ
  order : Nat
  spokes : Nat

/-- `_cell_order[icell][ifunc]` and `_cell_coef[icell][ifunc]`. -/
structure VpsCell where
  order : Nat
  coef : Nat → Dbl

/-- Enough fuel for the loops over multi-indices, `C63_basis`. -/
def basisFuel (V : VpsIn) (order : Nat) : Nat := (order + 1) ^ V.P.dim

/-- The directions drawn in pass `k` of `get_vps_neighbors`, which has `k + 1` layers. -/
def passDirs (V : VpsIn) (U : Nat → Nat → Nat → Nat → ℝ) (k : Nat) : List (List (Nat → ℝ)) := (List.range (k + 1)).map fun l => (List.range V.spokes).map fun s => U k l s

/-- The loop of `get_vps_neighbors` (MeshingVoroSpokes.cpp:1529-1538): pass `k`, `num_old_neighbors = old`. -/
noncomputable def vpsNeighbors (V : VpsIn) (U : Nat → Nat → Nat → Nat → ℝ) (x : Nat → ℝ) (want : Nat) : Nat → Nat → Nat → Option (List NbrRec)
  | 0, _, _ => none
  | fuel + 1, k, old =>
    match voronoiNeighbors V.P V.ln (fun _ => true) x (passDirs V U k) with
    | none => none
    | some (nb, _) => if old = nb.length then some nb else if want ≤ nb.length then some nb else vpsNeighbors V U x want fuel (k + 1) nb.length

/-- The order is lowered until there are twice as many neighbours as functions (MeshingVoroSpokes.cpp:1432-1438): the order and `num_basis`. -/
def lowerOrder (V : VpsIn) (num : Nat) : Nat → Option (Nat × Nat)
  | 0 => (numBasis V.total V.P.dim 0 (basisFuel V 0)).map fun b => (0, b)
  | o + 1 =>
    match numBasis V.total V.P.dim (o + 1) (basisFuel V (o + 1)) with
    | none => none
    | some b => if num < 2 * b then lowerOrder V num o else some (o + 1, b)

/-- `evaluate_basis(ibasis, _num_dim, order, y - x, basis_order)` (MeshingVoroSpokes.cpp:1461, 1477, 1344, 1350).  By `C63_basis` the second case does not occur from dimension one on. -/
noncomputable def basisAt (V : VpsIn) (order : Nat) (x y : Nat → ℝ) (ib : Nat) : ℝ × Nat :=
  match evalBasis V.cheb V.total V.P.dim order ib (fun d => y d - x d) (basisFuel V order) with
  | some r => r
  | none => (0, 0)

/-- `dst_sq` (MeshingVoroSpokes.cpp:1465-1466). -/
def dstSqAt (V : VpsIn) (x y : Nat → ℝ) : ℝ := sumDim (fun d => (y d - x d) * (y d - x d)) V.P.dim

/-- `weight` (MeshingVoroSpokes.cpp:1463, 1473). -/
noncomputable def vpsWeight (V : VpsIn) (x : Nat → ℝ) (a : NbrRec) : ℝ := (a.hits / V.spokes) * (a.hits / V.spokes) / dstSqAt V x (V.P.pts a.seed)

/-- The matrix `A` (MeshingVoroSpokes.cpp:1475-1479); `nb` is the list of neighbours without the first one. -/
noncomputable def vpsMatrix (V : VpsIn) (order : Nat) (x : Nat → ℝ) (nb : List NbrRec) (i j : Nat) : ℝ :=
  match nb[i]? with
  | none => 0
  | some a => vpsWeight V x a * (basisAt V order x (V.P.pts a.seed) j).1

/-- The right side `b` (MeshingVoroSpokes.cpp:1480). -/
noncomputable def vpsRhs (V : VpsIn) (icell : Nat) (x : Nat → ℝ) (nb : List NbrRec) (i : Nat) : ℝ :=
  match nb[i]? with
  | none => 0
  | some a => vpsWeight V x a * (V.f a.seed - V.f icell)

/-- The regression (MeshingVoroSpokes.cpp:1446-1485) with `LS_QR_Solver`; the coefficients are zero before.  The first neighbour is left out. -/
noncomputable def vpsFit (V : VpsIn) (icell : Nat) (x : Nat → ℝ) (nb : List NbrRec) (order b : Nat) : Option VpsCell :=
  if ∃ a ∈ nb.tail, dstSqAt V x (V.P.pts a.seed) = 0 ∨ V.spokes = 0 then none
  else
    match lsSolve (nb.length - 1) b (vpsMatrix V order x nb.tail) (vpsRhs V icell x nb.tail) (fun _ => some 0) with
    | none => none
    | some c => some ⟨order, c⟩

/-- The part of `build_vps_model` after the neighbours are known (MeshingVoroSpokes.cpp:1432-1490).  With order 0 there are no coefficients. -/
noncomputable def vpsFromNeighbors (V : VpsIn) (icell : Nat) (x : Nat → ℝ) (nb : List NbrRec) : Option VpsCell :=
  match lowerOrder V nb.length V.order with
  | none => none
  | some (0, _) => some ⟨0, fun _ => none⟩
  | some (o + 1, b) => vpsFit V icell x nb (o + 1) b

/-- `build_vps_model(icell, num_spokes)` (MeshingVoroSpokes.cpp:1406-1495).  `num_neighbors` is 0 before the first pass. -/
noncomputable def buildVps (V : VpsIn) (U : Nat → Nat → Nat → Nat → ℝ) (icell fuel : Nat) : Option VpsCell :=
  if icell < V.P.num then
    if V.order = 0 then some ⟨0, fun _ => none⟩
    else
      match numBasis V.total V.P.dim V.order (basisFuel V V.order) with
      | none => none
      | some b =>
        match vpsNeighbors V U (V.P.pts icell) (2 * b) fuel 0 0 with
        | none => none
        | some nb => vpsFromNeighbors V icell (V.P.pts icell) nb
  else none

/-- The sum over the functions of the basis (MeshingVoroSpokes.cpp:1345-1351, 1386-1397). -/
noncomputable def vpsSum (V : VpsIn) (cell : VpsCell) (x z : Nat → ℝ) (f0 : ℝ) : Nat → Dbl
  | 0 => some f0
  | b + 1 => dadd (vpsSum V cell x z f0 b) (dmul (cell.coef b) (some (basisAt V cell.order x z b).1))

/-- `evaluate_vps(icell, x, f_x)` (MeshingVoroSpokes.cpp:1330-1357); `cells` is `_cell_order` with `_cell_coef`. -/
noncomputable def evalCell (V : VpsIn) (cells : Nat → VpsCell) (icell : Nat) (z : Nat → ℝ) : Option Dbl :=
  if icell < V.P.num then (numBasis V.total V.P.dim (cells icell).order (basisFuel V (cells icell).order)).map fun b => vpsSum V (cells icell) (V.P.pts icell) z (V.f icell) b
  else none

/-- The estimate of the error for order 0 (MeshingVoroSpokes.cpp:1371-1378). -/
noncomputable def errZero (V : VpsIn) (x z : Nat → ℝ) : Dbl := some (sumDim (fun d => 1e-4 * |x d - z d|) V.P.dim)

/-- `err_coef`: `if (err_coef < min_err_coef) err_coef = min_err_coef` (MeshingVoroSpokes.cpp:1391-1392). -/
noncomputable def errCoef (c : ℝ) : ℝ := if |c| < 1e-4 then 1e-4 else |c|

/-- The estimate of the error from order 1 on (MeshingVoroSpokes.cpp:1384-1394): the functions of full degree. -/
noncomputable def errSum (V : VpsIn) (cell : VpsCell) (x z : Nat → ℝ) : Nat → Dbl
  | 0 => some 0
  | b + 1 =>
    if (basisAt V cell.order x z b).2 = cell.order then dadd (errSum V cell x z b) ((cell.coef b).map fun c => |errCoef c * (basisAt V cell.order x z b).1|)
    else errSum V cell x z b

/-- `evaluate_vps(icell, x, f_x, vps_err_est)` (MeshingVoroSpokes.cpp:1360-1403): the value and the estimate. -/
noncomputable def evalCellErr (V : VpsIn) (cells : Nat → VpsCell) (icell : Nat) (z : Nat → ℝ) : Option (Dbl × Dbl) :=
  if icell < V.P.num then
    if (cells icell).order = 0 then some (some (V.f icell), errZero V (V.P.pts icell) z)
    else (numBasis V.total V.P.dim (cells icell).order (basisFuel V (cells icell).order)).map fun b =>
      (vpsSum V (cells icell) (V.P.pts icell) z (V.f icell) b, errSum V (cells icell) (V.P.pts icell) z b)
  else none

/-- `evaluate_vps(x, fx)` (MeshingVoroSpokes.cpp:334-346). -/
noncomputable def evalVps (V : VpsIn) (cells : Nat → VpsCell) (z : Nat → ℝ) : Option Dbl :=
  if V.P.num = 0 then some (some 0)
  else
    match closestQuery Rounding.exact V.P V.ln (fun _ => true) z false ⊤ with
    | none => none
    | some (ic, _) => evalCell V cells ic z

end VoroCrust
