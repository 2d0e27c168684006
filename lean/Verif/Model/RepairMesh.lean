import Verif.Model.Mesh

/-!
# Model of the check of a surface mesh in `MeshingPolyMesh` (`valid_surface_mesh`, MeshingPolyMesh.cpp:866-1009)

The spheres are those of the surface, then of the edges, then of the corners, as in the arrays of the code; a sphere has its radius and, through the parameter `dist`, the distance of its centre from others (exact).  The file that is
written at the end is that of `save_mesh_obj` (C62).  `none` is undefined behaviour.
-/

namespace VoroCrust

/-- The radii, `shrunk`, `num_shrunk`, `water_tight` and the three flags that are returned through references. -/
structure RepairState where
  radius : Nat → ℝ
  shrunk : Nat → Bool
  num : Nat
  tight : Bool
  surfaceShrunk : Bool
  edgeShrunk : Bool
  cornerShrunk : Bool

open Classical in
/-- One end of an open edge (MeshingPolyMesh.cpp:938-984).  The third branch sets `edge_sphere_shrunk` for a corner sphere. -/
noncomputable def repairPoint (ns ne nc : Nat) (rmax : ℝ) (p : Nat) (s : RepairState) : RepairState :=
  if p < ns + ne + nc then
    if s.radius p > rmax then
      { s with
        radius := fun q => if q = p then rmax else s.radius q
        surfaceShrunk := if p < ns then true else s.surfaceShrunk
        edgeShrunk := if p < ns then s.edgeShrunk else if p < ns + ne then true else true
        shrunk := fun q => if q = p then true else s.shrunk q
        num := if s.shrunk p then s.num else s.num + 1 }
    else s
  else s

/-- One edge of a face (MeshingPolyMesh.cpp:924-987). -/
noncomputable def repairEdge (ns ne nc : Nat) (faces : List (List Nat)) (pf : Nat → FaceBuf) (dist : Nat → Nat → ℝ) (e : Nat × Nat) (s : RepairState) : Option RepairState :=
  match numEdgeFaces (ns + ne + nc) faces pf e.1 e.2 with
  | none => none
  | some c =>
    if c = 1 then
      let rmax := 0.49 * dist e.1 e.2
      some (repairPoint ns ne nc rmax e.2 (repairPoint ns ne nc rmax e.1 { s with tight := false }))
    else some s

/-- The three edges of a face (MeshingPolyMesh.cpp:922-988). -/
noncomputable def repairEdges (ns ne nc : Nat) (faces : List (List Nat)) (pf : Nat → FaceBuf) (dist : Nat → Nat → ℝ) : List (Nat × Nat) → RepairState → Option RepairState
  | [], s => some s
  | e :: es, s =>
    match repairEdge ns ne nc faces pf dist e s with
    | none => none
    | some s' => repairEdges ns ne nc faces pf dist es s'

/-- The loop over the faces (MeshingPolyMesh.cpp:920-989). -/
noncomputable def repairFaces (ns ne nc : Nat) (faces : List (List Nat)) (pf : Nat → FaceBuf) (dist : Nat → Nat → ℝ) : List (List Nat) → RepairState → Option RepairState
  | [], s => some s
  | f :: fs, s =>
    match edges3 f with
    | none => none
    | some es =>
      match repairEdges ns ne nc faces pf dist es s with
      | none => none
      | some s' => repairFaces ns ne nc faces pf dist fs s'

/-- `valid_surface_mesh` (MeshingPolyMesh.cpp:866-1009): the value returned, `return 0`, and the state; the flags begin with the values the caller gave them. -/
noncomputable def repairMesh (ns ne nc : Nat) (faces : List (List Nat)) (dist : Nat → Nat → ℝ) (radius : Nat → ℝ) (fs fe fc : Bool) : Option (Bool × RepairState) :=
  match buildPointFaces (ns + ne + nc) faces with
  | none => none
  | some pf =>
    match repairFaces ns ne nc faces pf dist faces
        { radius := radius, shrunk := fun _ => false, num := 0, tight := true, surfaceShrunk := fs, edgeShrunk := fe, cornerShrunk := fc } with
    | none => none
    | some s => some (false, s)

end VoroCrust
