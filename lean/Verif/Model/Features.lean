import Verif.Model.Sharp

/-!
# Model of the sharp features of an input mesh (`MeshingPolyMesh::extract_model_sharp_features`, `sharp_edge` and the smallest angle in `process_model`, MeshingPolyMesh.cpp:1053-1158, 1408-1612, 1725-1742)

Faces and their incidence are those of `Verif.Model.Mesh`.  The angle tests are parameters: `sharp fi fj reversed` for two faces at an edge (1450-1466, see `creaseSharp`), `bend a p b` for two edges (1541-1553, see
`bendUnit`) and `pinch fi fj` for two faces at a point (1569-1570).  Appending with `add_entry` (C01) is appending to a list; the sorting of the corners (1605, C02) is left out, since they are found in ascending order.
`none` is undefined behaviour.
-/

namespace VoroCrust

/-- `min_face_index` (MeshingPolyMesh.cpp:1424-1428). -/
def minFace : Nat → List Nat → Nat
  | m, [] => m
  | m, k :: ks => minFace (if k < m then k else m) ks

/-- `reversed` (MeshingPolyMesh.cpp:1452-1463): the loop reads the corners `ic` and `icp` of the other face each time, not `jc` and `jcp`; `pos` is `ic - 1`. -/
def reversedAt (faces : List (List Nat)) (fj pos : Nat) (e : Nat × Nat) : Option Bool :=
  match faces[fj]? with
  | none => none
  | some g =>
    match g[pos]?, g[(pos + 1) % 3]? with
    | some a, some b => some (decide (a = e.1 ∧ b = e.2))
    | _, _ => none

/-- One edge of a face (MeshingPolyMesh.cpp:1417-1472). -/
def featureEdge (n : Nat) (faces : List (List Nat)) (pf : Nat → FaceBuf) (sharp : Nat → Nat → Bool → Bool) (iface pos : Nat) (e : Nat × Nat) : Option (List (Nat × Nat)) :=
  match numEdgeFaces n faces pf e.1 e.2, edgeFaces n faces pf e.1 e.2 with
  | some c, some b =>
    if b.items.length < c then none
    else if minFace faces.length (b.items.take c) ≠ iface then some []
    else if c ≠ 2 then some [e]
    else
      match b.items with
      | fi :: fj :: _ =>
        match reversedAt faces fj pos e with
        | none => none
        | some r => some (if sharp fi fj r then [e] else [])
      | _ => none
  | _, _ => none

/-- The three edges of a face (MeshingPolyMesh.cpp:1415-1473). -/
def featureFace (n : Nat) (faces : List (List Nat)) (pf : Nat → FaceBuf) (sharp : Nat → Nat → Bool → Bool) (iface : Nat) (f : List Nat) : Option (List (Nat × Nat)) :=
  match f with
  | a :: b :: c :: _ =>
    match featureEdge n faces pf sharp iface 0 (a, b), featureEdge n faces pf sharp iface 1 (b, c), featureEdge n faces pf sharp iface 2 (c, a) with
    | some l0, some l1, some l2 => some (l0 ++ (l1 ++ l2))
    | _, _, _ => none
  | _ => none

/-- The loop over the faces (MeshingPolyMesh.cpp:1412-1475). -/
def featureFaces (n : Nat) (faces : List (List Nat)) (pf : Nat → FaceBuf) (sharp : Nat → Nat → Bool → Bool) : Nat → List (List Nat) → Option (List (Nat × Nat))
  | _, [] => some []
  | iface, f :: fs =>
    match featureFace n faces pf sharp iface f, featureFaces n faces pf sharp (iface + 1) fs with
    | some l, some l' => some (l ++ l')
    | _, _ => none

/-- `_sharp_edges` (MeshingPolyMesh.cpp:1411-1483). -/
def featureEdges (n : Nat) (faces : List (List Nat)) (pf : Nat → FaceBuf) (sharp : Nat → Nat → Bool → Bool) : Option (List (Nat × Nat)) := featureFaces n faces pf sharp 0 faces

/-- The test of two faces at an edge (MeshingPolyMesh.cpp:1450, 1464-1466). -/
noncomputable def creaseSharp (th : ℝ) (normal : Nat → V3) (fi fj : Nat) (reversed : Bool) : Bool :=
  let c := dot3 (normal fi) (normal fj)
  decide ((if reversed then -c else c) < th)

/-- `num_common_vertices` (MeshingPolyMesh.cpp:1572-1579). -/
def commonVertices (f g : List Nat) : Nat := (f.map fun a => g.countP fun b => decide (a = b)).sum

/-- The faces after one of the list (MeshingPolyMesh.cpp:1565-1584). -/
def pinchFrom (faces : List (List Nat)) (pinch : Nat → Nat → Bool) (fi : Nat) : List Nat → Option Bool
  | [] => some false
  | fj :: fs =>
    if pinch fi fj then
      match faces[fi]?, faces[fj]? with
      | some f, some g => if commonVertices f g = 1 then some true else pinchFrom faces pinch fi fs
      | _, _ => none
    else pinchFrom faces pinch fi fs

/-- All pairs of faces of a point (MeshingPolyMesh.cpp:1561-1586). -/
def pinchAt (faces : List (List Nat)) (pinch : Nat → Nat → Bool) : List Nat → Option Bool
  | [] => some false
  | fi :: fs =>
    match pinchFrom faces pinch fi fs with
    | none => none
    | some true => some true
    | some false => pinchAt faces pinch fs

/-- `i1 = _sharp_edges[ied][0]; if (i1 == ipoint) i1 = _sharp_edges[ied][1]` (MeshingPolyMesh.cpp:1538-1541). -/
def farEnd (p : Nat) (e : Nat × Nat) : Nat := if e.1 = p then e.2 else e.1

/-- One point (MeshingPolyMesh.cpp:1522-1592). -/
def featureCorner (faces : List (List Nat)) (pf pe : Nat → FaceBuf) (es : List (Nat × Nat)) (bend : Nat → Nat → Nat → Bool) (pinch : Nat → Nat → Bool) (p : Nat) : Option Bool :=
  let k := (pe p).items.length
  if k = 1 ∨ k > 2 then some true
  else if k = 2 then
    match endsAt es (pe p).items with
    | some (e :: e' :: _) => some (bend (farEnd p e) p (farEnd p e'))
    | _ => none
  else pinchAt faces pinch (pf p).items

/-- The loop over the points (MeshingPolyMesh.cpp:1520-1592): those below `m`. -/
def featureCornerLoop (faces : List (List Nat)) (pf pe : Nat → FaceBuf) (es : List (Nat × Nat)) (bend : Nat → Nat → Nat → Bool) (pinch : Nat → Nat → Bool) : Nat → Option (List Nat)
  | 0 => some []
  | p + 1 =>
    match featureCornerLoop faces pf pe es bend pinch p, featureCorner faces pf pe es bend pinch p with
    | some l, some true => some (l ++ [p])
    | some l, some false => some l
    | _, _ => none

/-- The test of two edges at a point (MeshingPolyMesh.cpp:1542-1553). -/
noncomputable def bendUnit (th : ℝ) (x : Nat → V3) (a p b : Nat) : Bool := decide (dot3 (normalize3 fun d => x a d - x p d).1 (normalize3 fun d => x p d - x b d).1 < th)

/-- The sharp edges, the corners and the edges of each point (`build_point_sharp_edges`, 1117-1158). -/
structure ModelFeatures where
  edges : List (Nat × Nat)
  corners : List Nat
  pointEdges : Nat → FaceBuf

/-- `extract_model_sharp_features` (MeshingPolyMesh.cpp:1408-1612). -/
def extractFeatures (n : Nat) (faces : List (List Nat)) (sharp : Nat → Nat → Bool → Bool) (bend : Nat → Nat → Nat → Bool) (pinch : Nat → Nat → Bool) : Option ModelFeatures :=
  match buildPointFaces n faces with
  | none => none
  | some pf =>
    match featureEdges n faces pf sharp with
    | none => none
    | some es =>
      match pointEdges n es with
      | none => none
      | some pe =>
        match featureCornerLoop faces pf pe es bend pinch n with
        | none => none
        | some cs => some ⟨es, cs, pe⟩

/-- The loop of `sharp_edge` (MeshingPolyMesh.cpp:1730-1736). -/
def sharpEdgeLoop (es : List (Nat × Nat)) (q : Nat) : List Nat → Option Bool
  | [] => some false
  | k :: ks =>
    match es[k]? with
    | none => none
    | some e => if e.1 = q ∨ e.2 = q then some true else sharpEdgeLoop es q ks

/-- `sharp_edge` (MeshingPolyMesh.cpp:1725-1742). -/
def isSharpEdge (n : Nat) (F : ModelFeatures) (p q : Nat) : Option Bool :=
  if F.edges.length = 0 then some false else if p < n then sharpEdgeLoop F.edges q (F.pointEdges p).items else none

/-- One edge of the loop for the smallest angle (MeshingPolyMesh.cpp:1080-1107): `dot_min`; `cosine` is the dot product of two normals. -/
noncomputable def minDotEdge (n : Nat) (faces : List (List Nat)) (pf : Nat → FaceBuf) (F : ModelFeatures) (cosine : Nat → Nat → ℝ) (iface : Nat) (m : ℝ) (e : Nat × Nat) : Option ℝ :=
  match isSharpEdge n F e.1 e.2 with
  | none => none
  | some true => some m
  | some false =>
    match edgeFaces n faces pf e.1 e.2 with
    | some ⟨_, fi :: fj :: _⟩ =>
      let v := if fi ≠ iface then cosine fj fi else cosine fi fj
      some (if v < m then v else m)
    | _ => none

/-- The edges of one face. -/
noncomputable def minDotFace (n : Nat) (faces : List (List Nat)) (pf : Nat → FaceBuf) (F : ModelFeatures) (cosine : Nat → Nat → ℝ) (iface : Nat) : List (Nat × Nat) → ℝ → Option ℝ
  | [], m => some m
  | e :: es, m =>
    match minDotEdge n faces pf F cosine iface m e with
    | none => none
    | some m' => minDotFace n faces pf F cosine iface es m'

/-- All faces (MeshingPolyMesh.cpp:1077-1109). -/
noncomputable def minDotFaces (n : Nat) (faces : List (List Nat)) (pf : Nat → FaceBuf) (F : ModelFeatures) (cosine : Nat → Nat → ℝ) : Nat → List (List Nat) → ℝ → Option ℝ
  | _, [], m => some m
  | iface, f :: fs, m =>
    match edges3 f with
    | none => none
    | some es =>
      match minDotFace n faces pf F cosine iface es m with
      | none => none
      | some m' => minDotFaces n faces pf F cosine (iface + 1) fs m'

end VoroCrust
