import Verif.Model.RepairMesh

/-!
# Model of the generation of a surface mesh in `MeshingPolyMesh` (`generate_surface_mesh`, MeshingPolyMesh.cpp:504-864)

The loops that collect the intersection pairs and the slivers (504-790) are those of `generate_surface_seeds`, which are modelled in `Seeds`; here they are a function of the Lipschitz constant and of the radii, which gives the
sliver spheres with their new radii and the triangles of the seeds.  The spheres are those of the surface, then of the edges, then of the corners.  `none` is undefined behaviour or fuel used up.
-/

namespace VoroCrust

/-- The radii, the flags that are returned through references, and the triangles in the file `clean_mesh.obj`, which every call of `valid_surface_mesh` writes anew (MeshingPolyMesh.cpp:995). -/
structure MeshGen where
  radius : Nat → ℝ
  surfaceShrunk : Bool
  edgeShrunk : Bool
  cornerShrunk : Bool
  file : List (List Nat)

/-- Shrinking the sliver spheres (MeshingPolyMesh.cpp:799-827). -/
def shrinkAll (ns ne nc : Nat) : List (Nat × ℝ) → MeshGen → Option MeshGen
  | [], g => some g
  | (i, r) :: l, g =>
    let radius := fun q => if q = i then r else g.radius q
    if i < ns then shrinkAll ns ne nc l { g with radius := radius, surfaceShrunk := true }
    else if i < ns + ne then shrinkAll ns ne nc l { g with radius := radius, edgeShrunk := true }
    else if i < ns + ne + nc then shrinkAll ns ne nc l { g with radius := radius, cornerShrunk := true }
    else none

/-- The call of `valid_surface_mesh` (MeshingPolyMesh.cpp:860). -/
noncomputable def checkAndSave (ns ne nc : Nat) (dist : Nat → Nat → ℝ) (faces : List (List Nat)) (g : MeshGen) : Option MeshGen :=
  match repairMesh ns ne nc faces dist g.radius g.surfaceShrunk g.edgeShrunk g.cornerShrunk with
  | none => none
  | some (_, s) => some { radius := s.radius, surfaceShrunk := s.surfaceShrunk, edgeShrunk := s.edgeShrunk, cornerShrunk := s.cornerShrunk, file := faces }

/-- `generate_surface_mesh` (MeshingPolyMesh.cpp:504-864).  With slivers the trees of the seeds are cleared and the function calls itself with the constant 0.25 (842-846); what it does after that is done with the trees that were
cleared, of which there are no triangles left (848-860). -/
noncomputable def generateMesh (ns ne nc : Nat) (dist : Nat → Nat → ℝ) (pass : ℝ → (Nat → ℝ) → Option (List (Nat × ℝ) × List (List Nat))) : Nat → ℝ → MeshGen → Option MeshGen
  | 0, _, _ => none
  | fuel + 1, L, g =>
    match pass L g.radius with
    | none => none
    | some (slivers, faces) =>
      match shrinkAll ns ne nc slivers g with
      | none => none
      | some g' =>
        if slivers.length > 0 then
          match generateMesh ns ne nc dist pass fuel 0.25 g' with
          | none => none
          | some g'' => checkAndSave ns ne nc dist [] g''
        else checkAndSave ns ne nc dist faces g'

end VoroCrust
