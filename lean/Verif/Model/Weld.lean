import Verif.Model.KdQuery

/-!
# Model of `MeshingPolyMesh::weld_nearby_points` (MeshingPolyMesh.cpp:362-501)

Exact real arithmetic; the temporary tree and its closest-point query are the models of
`Verif.Model.KdTree` and `Verif.Model.KdQuery`.
-/

namespace VoroCrust

/-- The point loop (MeshingPolyMesh.cpp:367-391).  State: temporary tree and `point_map` so far.  `num`
of the code is the number of tree points.  `rb` is the tree's re-balancing policy. -/
noncomputable def weldPoints (rb : Nat → Nat → Bool) (hmin : ℝ) :
    List (Nat → ℝ) → SmartTree ℝ × List Nat → Option (SmartTree ℝ × List Nat)
  | [], s => some s
  | x :: xs, (st, map) =>
    if map.length = 0 then
      match addTreePoint realLt 3 rb st x with
      | none => none
      | some st' => weldPoints rb hmin xs (st', map ++ [st.num])
    else
      match closestQuery Rounding.exact { pts := st.pts, num := st.num, dim := 3, lt := realLt } st.links (fun _ => true) x false ⊤ with
      | none => none
      | some (c, h) =>
        open Classical in
        if h < (hmin : WithTop ℝ) then weldPoints rb hmin xs (st, map ++ [c])
        else
          match addTreePoint realLt 3 rb st x with
          | none => none
          | some st' => weldPoints rb hmin xs (st', map ++ [st.num])

/-- Re-mapping the corners of a face (MeshingPolyMesh.cpp:407-415); reading `point_map` out of range is
undefined behaviour. -/
def remapFace (map : List Nat) (f : List Nat) : Option (List Nat) := f.mapM (fun c => map[c]?)

/-- The degeneracy test: two cyclically consecutive corners are equal (MeshingPolyMesh.cpp:423-430). -/
def degenerateFrom (first : Nat) : List Nat → Bool
  | [] => false
  | [a] => a == first
  | a :: b :: f => a == b || degenerateFrom first (b :: f)

/-- Degeneracy of a face given by its corner list. -/
def degenerateFace : List Nat → Bool
  | [] => false
  | a :: f => degenerateFrom a (a :: f)

/-- The removal loop (MeshingPolyMesh.cpp:419-443): a degenerate face is replaced by the last one and the
same position is examined again. -/
def removeDegenerate (i : Nat) (fs : List (List Nat)) : List (List Nat) :=
  if h : i < fs.length then
    if degenerateFace fs[i] then removeDegenerate i ((fs.set i (fs[fs.length - 1]'(by omega))).dropLast)
    else removeDegenerate (i + 1) fs
  else fs
termination_by fs.length - i
decreasing_by
  · simp; omega
  · omega

/-- `weld_nearby_points` (MeshingPolyMesh.cpp:362-501): new points and faces.  When nothing was welded the
function returns before touching the faces (393-397).  The block under `if (false)` (446-490) is dead. -/
noncomputable def weld (rb : Nat → Nat → Bool) (hmin : ℝ) (points : List (Nat → ℝ)) (faces : List (List Nat)) :
    Option (List (Nat → ℝ) × List (List Nat)) :=
  match weldPoints rb hmin points (SmartTree.empty (fun _ _ => 0) id id, []) with
  | none => none
  | some (st, map) =>
    if st.num = points.length then some (points, faces)
    else
      match faces.mapM (remapFace map) with
      | none => none
      | some fs => some ((List.range st.num).map st.pts, removeDegenerate 0 fs)

end VoroCrust
