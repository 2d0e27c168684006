import Verif.Model.Text
import Verif.Model.Weld

/-!
# Model of the surface files the program writes

`MeshingPolyMesh::save_mesh_obj` (MeshingPolyMesh.cpp:336-361), the end of `read_input_obj_file`
(MeshingPolyMesh.cpp:324-325), which writes the welded surface to `clean.obj`, and the end of the merging of several
surfaces (MeshingVoroCrust.cpp:208-209), which writes `model_combined.obj`.

The text of a coordinate is left open (`showV`): it is what `operator<<` with 16 digits prints.  Indices are printed in
decimal; `faces[i][j] + 1` is taken without wrap-around.
-/

namespace VoroCrust

/-- A vertex line (MeshingPolyMesh.cpp:345). -/
def vertexText {V : Type} (showV : V → List Char) (p : Nat → V) : List Char :=
  "v ".toList ++ showV (p 0) ++ " ".toList ++ showV (p 1) ++ " ".toList ++ showV (p 2) ++ "\n".toList

/-- A face line (MeshingPolyMesh.cpp:351-355): three corners, numbered from one; reading a missing corner is undefined. -/
def faceText (f : List Nat) : Option (List Char) :=
  match f with
  | a :: b :: c :: _ => some ("f ".toList ++ " ".toList ++ Nat.toDigits 10 (a + 1) ++ " ".toList ++ Nat.toDigits 10 (b + 1) ++ " ".toList ++ Nat.toDigits 10 (c + 1) ++ "\n".toList)
  | _ => none

/-- The face loop (MeshingPolyMesh.cpp:349-357). -/
def facesText : List (List Nat) → Option (List Char)
  | [] => some []
  | f :: fs =>
    match faceText f, facesText fs with
    | some t, some ts => some (t ++ ts)
    | _, _ => none

/-- `save_mesh_obj` (MeshingPolyMesh.cpp:336-361): the text of the file. -/
def saveObj {V : Type} (showV : V → List Char) (points : List (Nat → V)) (faces : List (List Nat)) : Option (List Char) :=
  (facesText faces).map (fun t => (points.map (vertexText showV)).flatten ++ t)

/-- A point as an array of three coordinates. -/
def arrayPt (p : ℝ × ℝ × ℝ) : Nat → ℝ := fun k => if k = 0 then p.1 else if k = 1 then p.2.1 else if k = 2 then p.2.2 else 0

/-- A face as an array of corners (without the leading count). -/
def arrayFace (f : Nat × Nat × Nat) : List Nat := [f.1, f.2.1, f.2.2]

/-- What a surface becomes in the program: points, faces, and the text of the file that is written. -/
structure SavedSurface where
  points : List (Nat → ℝ)
  faces : List (List Nat)
  text : List Char

/-- Weld with tolerance `1E-8` and write the result (MeshingPolyMesh.cpp:324-325, MeshingVoroCrust.cpp:208-209). -/
noncomputable def weldAndSave (showV : ℝ → List Char) (rb : Nat → Nat → Bool) (points : List (Nat → ℝ)) (faces : List (List Nat)) : Option SavedSurface :=
  match weld rb (1 / 10 ^ 8) points faces with
  | none => none
  | some (ps, fs) => (saveObj showV ps fs).map (fun t => { points := ps, faces := fs, text := t })

/-- `read_input_obj_file` (MeshingPolyMesh.cpp:190-334): the surface and the text of `clean.obj`. -/
noncomputable def readInput (parse : Tok → ℝ) (index : Tok → Option Nat) (showV : ℝ → List Char) (rb : Nat → Nat → Bool) (file : List Char) : Option SavedSurface :=
  match readObj parse index file with
  | none => none
  | some s => weldAndSave showV rb (s.points.map arrayPt) (s.faces.map arrayFace)

/-- Reading the files one after the other (MeshingVoroCrust.cpp:178-182). -/
noncomputable def readInputs (parse : Tok → ℝ) (index : Tok → Option Nat) (showV : ℝ → List Char) (rb : Nat → Nat → Bool) : List (List Char) → Option (List SavedSurface)
  | [] => some []
  | f :: fs =>
    match readInput parse index showV rb f, readInputs parse index showV rb fs with
    | some s, some ss => some (s :: ss)
    | _, _ => none

/-- One round of the merge loop (MeshingVoroCrust.cpp:183-206): corners are shifted by the number of points so far. -/
def appendSurface (acc : List (Nat → ℝ) × List (List Nat)) (s : SavedSurface) : List (Nat → ℝ) × List (List Nat) :=
  (acc.1 ++ s.points, acc.2 ++ s.faces.map (List.map (· + acc.1.length)))

/-- Several files are read, merged, welded again and written to `model_combined.obj` (MeshingVoroCrust.cpp:174-211). -/
noncomputable def combinedSurface (parse : Tok → ℝ) (index : Tok → Option Nat) (showV : ℝ → List Char) (rb : Nat → Nat → Bool) (files : List (List Char)) : Option SavedSurface :=
  match readInputs parse index showV rb files with
  | none => none
  | some ss => weldAndSave showV rb (ss.foldl appendSurface ([], [])).1 (ss.foldl appendSurface ([], [])).2

/-- The input surface of a run (MeshingVoroCrust.cpp:173-216): several files are merged; a single file is only read.  Without an
input file `filenames[0]` (215) is undefined. -/
noncomputable def inputSurface (parse : Tok → ℝ) (index : Tok → Option Nat) (showV : ℝ → List Char) (rb : Nat → Nat → Bool) (files : List (List Char)) : Option SavedSurface :=
  match files with
  | [] => none
  | [f] => readInput parse index showV rb f
  | fs => combinedSurface parse index showV rb fs

end VoroCrust
