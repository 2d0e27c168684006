import Verif.Model.Vps

/-!
# Model of the mean over neighbouring cells of MeshingVoroSpokes (MeshingVoroSpokes.cpp:347-421)

As in Model/Vps.lean: one function at a time, exact real arithmetic, without `set_desired_orders`.  The estimate of the error is `none` if the argument is left as it was.
-/

namespace VoroCrust

open Classical

/-- `DBL_MAX`. -/
def dblMax : ℝ := (2 ^ 53 - 1) * 2 ^ 971

/-- `evaluate_vps(x, fx, vps_err_est)` (MeshingVoroSpokes.cpp:347-362). -/
noncomputable def evalVpsErr (V : VpsIn) (cells : Nat → VpsCell) (z : Nat → ℝ) : Option (Dbl × Dbl) :=
  if V.P.num = 0 then some (some 0, some dblMax)
  else
    match closestQuery Rounding.exact V.P V.ln (fun _ => true) z false ⊤ with
    | none => none
    | some (ic, _) => evalCellErr V cells ic z

/-- `angle` and `weight` (MeshingVoroSpokes.cpp:391-402). -/
noncomputable def vwnWeight (V : VpsIn) (z : Nat → ℝ) (a : NbrRec) : Dbl :=
  let angle := ddiv (some a.hits) (some V.spokes)
  ddiv (dmul angle angle) (some (dstSqAt V (V.P.pts a.seed) z))

/-- The loop over the neighbours (MeshingVoroSpokes.cpp:389-412): `fx`, `vwn_err_est`, `total_weight`. -/
noncomputable def vwnLoop (V : VpsIn) (cells : Nat → VpsCell) (z : Nat → ℝ) : List NbrRec → Dbl × Dbl × Dbl → Option (Dbl × Dbl × Dbl)
  | [], s => some s
  | a :: l, (fx, err, total) =>
    match evalCellErr V cells a.seed z with
    | none => none
    | some (v, e) => vwnLoop V cells z l (dadd fx (dmul (vwnWeight V z a) v), dadd err (dmul (vwnWeight V z a) e), dadd total (vwnWeight V z a))

/-- `evaluate_vwn` (MeshingVoroSpokes.cpp:364-421) with the directions drawn for each layer.  `neighbor_hits[0]` is read also if there is no neighbour: it was not set. -/
noncomputable def evalVwn (V : VpsIn) (cells : Nat → VpsCell) (z : Nat → ℝ) (uss : List (List (Nat → ℝ))) : Option (Dbl × Option Dbl) :=
  if uss = [] then (evalVpsErr V cells z).map fun r => (r.1, some r.2)
  else
    match voronoiNeighbors V.P V.ln (fun _ => true) z uss with
    | none => none
    | some ([], _) => none
    | some (a :: l, _) =>
      if a.hits = sizeMax64 then if a.seed < V.P.num then some (some (V.f a.seed), none) else none
      else (vwnLoop V cells z (a :: l) (some 0, some 0, some 0)).map fun r => (ddiv r.1 r.2.2, some (ddiv r.2.1 r.2.2))

end VoroCrust
