import Mathlib.Data.Real.Basic
import Mathlib.Data.List.Basic

/-!
# Model of the construction of a Voronoi cell in the tree (`MeshingSmartTree::get_3d_Voronoi_cell`, MeshingSmartTree.cpp:1094-1313)

The faces are found one after the other: the first is the one with the closest point, and the corners of a face give the points whose faces are still to be built.  The function `face` is `get_3d_Voronoi_face`, which is given the
point on the other side and a point of the face; the function `near` is `get_tree_points_in_sphere` at a corner with the radius that reaches the seed.  The number of spokes is the constant 1, so the branch with a random spoke
(1135-1162) is never taken.  The lists are those of the arrays, which are enlarged when they are full.  The area `DBL_MAX` is `none`.
-/

namespace VoroCrust

/-- `num_face_corners`, `face_corners`, `face_area` and `face_height`. -/
structure CellFace (P : Type) where
  corners : List P
  area : Option ℝ
  height : ℝ

/-- The loop over the points in a sphere (MeshingSmartTree.cpp:1198-1245). -/
def addExtra {P : Type} (seed nb : Nat) (cells : List Nat) (x : P) : List Nat → List (Nat × P) → List (Nat × P)
  | [], st => st
  | k :: ks, st =>
    if k = seed then addExtra seed nb cells x ks st
    else if k = nb then addExtra seed nb cells x ks st
    else if k ∈ cells then addExtra seed nb cells x ks st
    else if k ∈ st.map Prod.fst then addExtra seed nb cells x ks st
    else addExtra seed nb cells x ks (st ++ [(k, x)])

/-- The loop over the corners of a face (MeshingSmartTree.cpp:1183-1248). -/
def addCorners {P : Type} (near : P → List Nat) (seed nb : Nat) (cells : List Nat) : List P → List (Nat × P) → List (Nat × P)
  | [], st => st
  | x :: xs, st => addCorners near seed nb cells xs (addExtra seed nb cells x (near x) st)

/-- The loop that takes the neighbour off the list (MeshingSmartTree.cpp:1251-1260): the last entry moves to its place. -/
def dropExtra {P : Type} (nb : Nat) : Nat → Nat → List (Nat × P) → List (Nat × P)
  | 0, _, st => st
  | fuel + 1, i, st =>
    match st[i]? with
    | none => st
    | some e =>
      if e.1 = nb then
        match st.getLast? with
        | none => st
        | some l => dropExtra nb fuel (i + 1) ((st.set i l).dropLast)
      else dropExtra nb fuel (i + 1) st

/-- One face (MeshingSmartTree.cpp:1173-1275). -/
def visitFace {P : Type} (face : Nat → P → CellFace P) (near : P → List Nat) (seed nb : Nat) (x : P) (cells : List (Nat × P × CellFace P)) (st : List (Nat × P)) : List (Nat × P × CellFace P) × List (Nat × P) :=
  let st' := addCorners near seed nb (cells.map Prod.fst) (face nb x).corners st
  (cells ++ [(nb, x, face nb x)], dropExtra nb st'.length 0 st')

/-- The loop after the first face (MeshingSmartTree.cpp:1124-1303).  `none` is fuel used up. -/
def treeCellLoop {P : Type} (face : Nat → P → CellFace P) (near : P → List Nat) (seed : Nat) : Nat → List (Nat × P × CellFace P) → List (Nat × P) → Option (List (Nat × P × CellFace P))
  | 0, _, _ => none
  | fuel + 1, cells, st =>
    match st.getLast? with
    | none => some cells
    | some e =>
      let t := visitFace face near seed e.1 e.2 cells st.dropLast
      treeCellLoop face near seed fuel t.1 t.2

/-- `get_3d_Voronoi_cell` (MeshingSmartTree.cpp:1094-1313) in a tree with `n` points: the neighbours with their faces.  `closest` is the closest point and `mid` the point between it and the seed; without another point in the tree
`closest` is `n` (635), and the code reads past the points. -/
def treeCell {P : Type} (n : Nat) (face : Nat → P → CellFace P) (near : P → List Nat) (seed closest : Nat) (mid : Nat → P) (fuel : Nat) : Option (List (Nat × P × CellFace P)) :=
  if closest < n then
    let t := visitFace face near seed closest (mid closest) [] []
    treeCellLoop face near seed fuel t.1 t.2
  else none

/-- `cell_volume` (MeshingSmartTree.cpp:1266-1275); a sum with `DBL_MAX` is `DBL_MAX`. -/
noncomputable def treeCellVolume {P : Type} : List (Nat × P × CellFace P) → Option ℝ → Option ℝ
  | [], v => v
  | e :: es, v =>
    match e.2.2.area with
    | none => treeCellVolume es none
    | some a => treeCellVolume es (v.map fun u => u + a * e.2.2.height / 3)

end VoroCrust
