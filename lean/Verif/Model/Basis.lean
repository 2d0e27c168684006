import Mathlib.Data.Real.Basic
import Verif.Model.KdTree

/-!
# Model of the polynomial basis of MeshingVoroSpokes (MeshingVoroSpokes.cpp:1230-1328)

Coordinates are real numbers, `size_t` is unbounded.  A multi-index is an array of `num_dim` numbers, given as a function.  `none` is undefined behaviour or fuel used up.
-/

namespace VoroCrust

/-- `evaluate_basis_chebyshev` (MeshingVoroSpokes.cpp:1244-1250). -/
noncomputable def chebRec (x : ℝ) (ibasis : Nat) : Nat → ℝ → ℝ → Nat → Option ℝ
  | 0, _, _, _ => none
  | fuel + 1, fm, fmm, jbasis =>
    if ibasis = jbasis then some (2 * x * fm - fmm) else chebRec x ibasis fuel (2 * x * fm - fmm) fm (jbasis + 1)

/-- `evaluate_basis(x, ibasis)` with `_vps_basis == Chebyshev` or `monomials` (MeshingVoroSpokes.cpp:1230-1242). -/
noncomputable def basis1 (cheb : Bool) (fuel : Nat) (x : ℝ) (ibasis : Nat) : Option ℝ :=
  if ¬ cheb then some (x ^ ibasis)
  else if ibasis = 0 then some 1
  else if ibasis = 1 then some x
  else chebRec x ibasis fuel x 1 2

/-- The carry loop (MeshingVoroSpokes.cpp:1265-1270): `kdim` is the position. -/
def carryIdx (order : Nat) : Nat → (Nat → Nat) → Nat → Nat
  | 0, idx => idx
  | k + 1, idx => if idx (k + 1) > order then carryIdx order k (upd (upd idx (k + 1) 0) k (idx k + 1)) else idx

/-- One step of the odometer (MeshingVoroSpokes.cpp:1262-1270), for `num_dim > 0`. -/
def nextIdx (d order : Nat) (idx : Nat → Nat) : Nat → Nat := carryIdx order (d - 1) (upd idx (d - 1) (idx (d - 1) + 1))

/-- The sum of the entries (MeshingVoroSpokes.cpp:1273-1274). -/
def idxSum (idx : Nat → Nat) : Nat → Nat
  | 0 => 0
  | d + 1 => idxSum idx d + idx d

/-- The loop of `get_num_basis` (MeshingVoroSpokes.cpp:1260-1279). -/
def numBasisLoop (total : Bool) (d order : Nat) : Nat → (Nat → Nat) → Nat → Option Nat
  | 0, _, _ => none
  | fuel + 1, idx, cnt =>
    if nextIdx d order idx 0 > order then some cnt
    else if !total && idxSum (nextIdx d order idx) d > order then numBasisLoop total d order fuel (nextIdx d order idx) cnt
    else numBasisLoop total d order fuel (nextIdx d order idx) (cnt + 1)

/-- `get_num_basis` (MeshingVoroSpokes.cpp:1252-1283).  For `num_dim = 0` the first step writes `index[num_dim - 1]` of an empty array. -/
def numBasis (total : Bool) (d order fuel : Nat) : Option Nat := if d = 0 then none else numBasisLoop total d order fuel (fun _ => 0) 0

/-- The product of the one dimensional functions (MeshingVoroSpokes.cpp:1314-1318). -/
noncomputable def basisProd (cheb : Bool) (fuel : Nat) (x : Nat → ℝ) (idx : Nat → Nat) : Nat → Option ℝ
  | 0 => some 1
  | d + 1 =>
    match basisProd cheb fuel x idx d, basis1 cheb fuel (x d) (idx d) with
    | some p, some b => some (p * b)
    | _, _ => none

/-- The loop of `evaluate_basis(ibasis, ...)` (MeshingVoroSpokes.cpp:1294-1324): the value and `basis_order`. -/
noncomputable def evalBasisLoop (cheb total : Bool) (d order ibasis : Nat) (x : Nat → ℝ) : Nat → (Nat → Nat) → Nat → Option (ℝ × Nat)
  | 0, _, _ => none
  | fuel + 1, idx, cnt =>
    if nextIdx d order idx 0 > order then some (0, 0)
    else if !total && idxSum (nextIdx d order idx) d > order then evalBasisLoop cheb total d order ibasis x fuel (nextIdx d order idx) cnt
    else if cnt = ibasis then
      match basisProd cheb (order + 1) x (nextIdx d order idx) d with
      | some p => some (p, idxSum (nextIdx d order idx) d)
      | none => none
    else evalBasisLoop cheb total d order ibasis x fuel (nextIdx d order idx) (cnt + 1)

/-- `evaluate_basis(ibasis, num_dim, order, x, basis_order)` (MeshingVoroSpokes.cpp:1286-1328).  The fuel of the Chebyshev recursion is `order + 1`. -/
noncomputable def evalBasis (cheb total : Bool) (d order ibasis : Nat) (x : Nat → ℝ) (fuel : Nat) : Option (ℝ × Nat) :=
  if d = 0 then none else evalBasisLoop cheb total d order ibasis x fuel (fun _ => 0) 0

end VoroCrust
