import Verif.Model.Text
import Mathlib.Data.Real.Basic

/-! # Model of `MeshingVoronoiMesher::save_Voronoi_tessellation` (MeshingVoronoiMesher.cpp:2293-2425)

The array of coordinates and the arrays of the faces are lists; a read outside of them is undefined: `none`.  `faces` has `num_faces` entries.  Printing a number is a parameter, an index is printed in
decimal digits.  A file that cannot be opened is left out.
-/

namespace VoroCrust

open Classical

/-- One text line of words separated by blanks. -/
def plyLine (s : String) : List Char := s.toList ++ ['\n']

/-- The header (MeshingVoronoiMesher.cpp:2300-2318, 2377-2395). -/
def plyHeader (nv nf : Nat) : List Char :=
  plyLine "ply" ++ plyLine "format ascii 1.0" ++ plyLine "comment VoroCrust generated" ++ ("element vertex ".toList ++ Nat.toDigits 10 nv ++ ['\n']) ++
  plyLine "property float x" ++ plyLine "property float y" ++ plyLine "property float z" ++ ("element face ".toList ++ Nat.toDigits 10 nf ++ ['\n']) ++
  plyLine "property list uchar int vertex_indices" ++ plyLine "end_header"

/-- One vertex (MeshingVoronoiMesher.cpp:2323, 2400). -/
def plyVertex {V : Type} (showV : V → List Char) (vs : List V) (i : Nat) : Option (List Char) :=
  match vs[i * 3]?, vs[i * 3 + 1]?, vs[i * 3 + 2]? with
  | some a, some b, some c => some (showV a ++ " ".toList ++ showV b ++ " ".toList ++ showV c ++ ['\n'])
  | _, _, _ => none

/-- The vertices (MeshingVoronoiMesher.cpp:2321-2324, 2398-2401): `n` of them from `i` on. -/
def plyVertices {V : Type} (showV : V → List Char) (vs : List V) : Nat → Nat → Option (List Char)
  | 0, _ => some []
  | n + 1, i =>
    match plyVertex showV vs i, plyVertices showV vs n (i + 1) with
    | some l, some ls => some (l ++ ls)
    | _, _ => none

/-- The corners of one face (MeshingVoronoiMesher.cpp:2333-2337, 2412-2416): the next `n` entries of the array. -/
def plyCorners : Nat → List Nat → Option (List Char)
  | 0, _ => some []
  | _ + 1, [] => none
  | n + 1, c :: cs =>
    match plyCorners n cs with
    | none => none
    | some l => some (" ".toList ++ Nat.toDigits 10 c ++ l)

/-- One face (MeshingVoronoiMesher.cpp:2330-2338, 2409-2417). -/
def plyFace (f : List Nat) : Option (List Char) :=
  match f with
  | [] => none
  | n :: cs =>
    match plyCorners n cs with
    | none => none
    | some l => some (Nat.toDigits 10 n ++ l ++ ['\n'])

/-- The faces (MeshingVoronoiMesher.cpp:2327-2339, 2404-2418); the flags are `valid_faces`. -/
def plyFaces : List (List Nat × Bool) → Option (List Char)
  | [] => some []
  | (f, b) :: fs =>
    if b then
      match plyFace f, plyFaces fs with
      | some l, some ls => some (l ++ ls)
      | _, _ => none
    else plyFaces fs

/-- The file for given flags. -/
def plyFile {V : Type} (showV : V → List Char) (nv : Nat) (vs : List V) (fs : List (List Nat × Bool)) : Option (List Char) :=
  match plyVertices showV vs nv 0, plyFaces fs with
  | some v, some f => some (plyHeader nv (fs.filter (·.2)).length ++ v ++ f)
  | _, _ => none

/-- `save_Voronoi_tessellation` of all faces (MeshingVoronoiMesher.cpp:2293-2342). -/
def savePly {V : Type} (showV : V → List Char) (nv : Nat) (vs : List V) (faces : List (List Nat)) : Option (List Char) :=
  plyFile showV nv vs (faces.map fun f => (f, true))

/-- `dot` of one corner (MeshingVoronoiMesher.cpp:2358-2364). -/
noncomputable def cornerDot (vs : List ℝ) (xo e : Nat → ℝ) (c : Nat) : Option ℝ :=
  match vs[c * 3]?, vs[c * 3 + 1]?, vs[c * 3 + 2]? with
  | some x, some y, some z => some (0 + (x - xo 0) * e 0 + (y - xo 1) * e 1 + (z - xo 2) * e 2)
  | _, _, _ => none

/-- The loop over the corners with its `break` (MeshingVoronoiMesher.cpp:2355-2370). -/
noncomputable def cornersAhead (vs : List ℝ) (xo e : Nat → ℝ) : Nat → List Nat → Option Bool
  | 0, _ => some true
  | _ + 1, [] => none
  | n + 1, c :: cs =>
    match cornerDot vs xo e c with
    | none => none
    | some d => if d < -1e-10 then some false else cornersAhead vs xo e n cs

/-- `valid_faces` (MeshingVoronoiMesher.cpp:2350-2372). -/
noncomputable def facesAhead (vs : List ℝ) (xo e : Nat → ℝ) : List (List Nat) → Option (List (List Nat × Bool))
  | [] => some []
  | [] :: _ => none
  | (n :: cs) :: fs =>
    match cornersAhead vs xo e n cs, facesAhead vs xo e fs with
    | some b, some l => some ((n :: cs, b) :: l)
    | _, _ => none

/-- `save_Voronoi_tessellation` of the faces on one side of a plane (MeshingVoronoiMesher.cpp:2344-2425). -/
noncomputable def savePlyAhead (showV : ℝ → List Char) (nv : Nat) (vs : List ℝ) (faces : List (List Nat)) (xo e : Nat → ℝ) : Option (List Char) :=
  match facesAhead vs xo e faces with
  | none => none
  | some fs => plyFile showV nv vs fs

end VoroCrust
