import Verif.Model.Orient
import Mathlib.Analysis.Real.Sqrt
import Mathlib.Algebra.BigOperators.Fin
import Mathlib.Order.WithBot

/-!
# Model of `adjust_cad_orientation` (MeshingPolyMesh.cpp:1821-1863) and of the order of the calls in `process_model`
(MeshingPolyMesh.cpp:1053-1074)

Exact real arithmetic.
-/

namespace VoroCrust

/-- A point or vector of space. -/
abbrev V3 := Fin 3 → ℝ

/-- `MeshingGeometricalMethods::distance` (MeshingGeometricalMethods.cpp:67-79) in dimension 3. -/
noncomputable def dist3 (x y : V3) : ℝ := Real.sqrt (∑ d, (x d - y d) ^ 2)

/-- The scan for the point nearest to `xcorner` (MeshingPolyMesh.cpp:1832-1840): `DMIN` starts at `DBL_MAX` (`⊤`) and the
index is uninitialised (`none`). -/
noncomputable def nearestScan (xc : V3) : List V3 → Nat → WithTop ℝ × Option Nat → WithTop ℝ × Option Nat
  | [], _, s => s
  | p :: ps, i, s =>
    open Classical in
    nearestScan xc ps (i + 1) (if ((dist3 p xc : ℝ) : WithTop ℝ) < s.1 then ((dist3 p xc : ℝ), some i) else s)

/-- Swapping the second and third corner (MeshingPolyMesh.cpp:1854-1856). -/
def swap23 : List Nat → List Nat
  | a :: b :: c :: r => a :: c :: b :: r
  | f => f

/-- `adjust_cad_orientation`: new faces and normals. -/
noncomputable def adjustCad (xmin xmax : V3) (points : List V3) (pf : Nat → FaceBuf) (faces : List (List Nat)) (normals : List V3) :
    Option (List (List Nat) × List V3) :=
  match (nearestScan (fun d => xmin d - (xmax d - xmin d)) points 0 (⊤, none)).2 with
  | none => none
  | some p =>
    match (pf p).items[0]?, points[p]? with
    | some k, some x =>
      match normals[k]? with
      | none => none
      | some nk =>
        open Classical in
        if ∑ d, nk d * ((xmin d - (xmax d - xmin d)) - x d) < 0 then some (faces.map swap23, normals.map (fun v => -v))
        else some (faces, normals)
    | _, _ => none

/-- The part of `process_model` that fixes orientation and normals (MeshingPolyMesh.cpp:1070-1072): the normals are
computed (by `N`, from the corner list) *before* the faces are re-oriented. -/
noncomputable def orientAndNormals (N : List Nat → V3) (g : Bool) (xmin xmax : V3) (points : List V3) (pf : Nat → FaceBuf) (faces : List (List Nat)) :
    Option (List (List Nat) × List V3) :=
  match orient points.length pf g faces with
  | none => none
  | some s => adjustCad xmin xmax points pf s.faces (faces.map N)

end VoroCrust
