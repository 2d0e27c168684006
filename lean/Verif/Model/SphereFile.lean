import Verif.Model.TreeFile

/-!
# Model of `MeshingVoronoiMesher::save_spheres_csv` (MeshingVoronoiMesher.cpp:2560-2590)

Writes `seeds.csv` (coordinates, sizes and regions in three arrays) and the files of monitoring points (coordinates and radius in one array, no regions).  Arrays are lists; a read outside of them is
undefined: `none`.  Printing numbers is a parameter.
-/

namespace VoroCrust

/-- The names of the columns (MeshingVoronoiMesher.cpp:2565-2567). -/
def sphereHeader (showN : Nat → List Char) (dim : Nat) : List Char :=
  "x1coord".toList ++ sepAll (fun i => 'x' :: (showN (i + 2) ++ "coord".toList)) (List.range (dim - 1)) ++ ", radius".toList

/-- The numbers of one row: entry `start` and the `more` entries after it (MeshingVoronoiMesher.cpp:2574-2575, 2581-2582). -/
def sphereNumbers {V : Type} (showV : V → List Char) (arr : List V) (start more : Nat) : Option (List Char) :=
  match readN (arr.drop start) (more + 1) with
  | some (c :: cs) => some (showV c ++ sepAll showV cs)
  | _ => none

/-- `if (spheres_region_id != 0) file << ", " << spheres_region_id[i]` (MeshingVoronoiMesher.cpp:2577, 2583). -/
def sphereRegion (showN : Nat → List Char) (region : Option (List Nat)) (i : Nat) : Option (List Char) :=
  match region with
  | none => some []
  | some rs =>
    match rs[i]? with
    | none => none
    | some r => some (sepAll showN [r])

/-- Row `i` (MeshingVoronoiMesher.cpp:2571-2584). -/
def sphereRow {V : Type} (showV : V → List Char) (showN : Nat → List Char) (dim : Nat) (spheres : List V) (sizing : Option (List V)) (region : Option (List Nat)) (i : Nat) : Option (List Char) :=
  match sizing with
  | some sz =>
    match sphereNumbers showV spheres (i * dim) (dim - 1), sz[i]?, sphereRegion showN region i with
    | some a, some s, some b => some (a ++ sepAll showV [s] ++ b)
    | _, _, _ => none
  | none =>
    match sphereNumbers showV spheres (i * (dim + 1)) dim, sphereRegion showN region i with
    | some a, some b => some (a ++ b)
    | _, _ => none

/-- The loop over the rows (MeshingVoronoiMesher.cpp:2569-2586): `n` rows from `i` on. -/
def rowsFrom (row : Nat → Option (List Char)) : Nat → Nat → Option (List Char)
  | 0, _ => some []
  | n + 1, i =>
    match row i, rowsFrom row n (i + 1) with
    | some l, some ls => some (l ++ '\n' :: ls)
    | _, _ => none

/-- `save_spheres_csv` (MeshingVoronoiMesher.cpp:2560-2590). -/
def saveSpheres {V : Type} (showV : V → List Char) (showN : Nat → List Char) (dim n : Nat) (spheres : List V) (sizing : Option (List V)) (region : Option (List Nat)) : Option (List Char) :=
  match rowsFrom (sphereRow showV showN dim spheres sizing region) n 0 with
  | none => none
  | some ls => some (sphereHeader showN dim ++ '\n' :: ls)

end VoroCrust
