import Mathlib.Data.Real.Basic

/-!
# Model of the triangle-mesh connectivity code of `MeshingPolyMesh`

A face is the list of its corner indices (`faces[iface][1..faces[iface][0]]`).  Reading or writing out
of range, and reading a cell that was never written, is `none`.
-/

namespace VoroCrust

/-- A heap block `size_t[cap + 1]` whose cell 0 holds the number of entries written so far
(MeshingPolyMesh.cpp:1180-1182, 1619-1620). -/
structure FaceBuf where
  /-- entries that fit -/
  cap : Nat
  /-- entries written -/
  items : List Nat
deriving DecidableEq

/-- Appending an entry (MeshingPolyMesh.cpp:1193-1195); overrunning the block is undefined behaviour. -/
def FaceBuf.push (b : FaceBuf) (f : Nat) : Option FaceBuf :=
  if b.items.length < b.cap then some { b with items := b.items ++ [f] } else none

/-- `faces[iface][1..3]` (MeshingPolyMesh.cpp:1168, 1190); undefined for faces with fewer corners. -/
def corners3 : List Nat → Option (List Nat)
  | a :: b :: c :: _ => some [a, b, c]
  | _ => none

/-- Inner counting loop (MeshingPolyMesh.cpp:1168-1172). -/
def countCorners (n : Nat) : List Nat → (Nat → Nat) → Option (Nat → Nat)
  | [], cnt => some cnt
  | p :: ps, cnt => if p < n then countCorners n ps (fun q => if q = p then cnt q + 1 else cnt q) else none

/-- Counting pass (MeshingPolyMesh.cpp:1163-1173). -/
def countFaces (n : Nat) : List (List Nat) → (Nat → Nat) → Option (Nat → Nat)
  | [], cnt => some cnt
  | f :: fs, cnt =>
    match corners3 f with
    | none => none
    | some cs =>
      match countCorners n cs cnt with
      | none => none
      | some cnt' => countFaces n fs cnt'

/-- Inner filling loop (MeshingPolyMesh.cpp:1190-1196). -/
def fillCorners (n iface : Nat) : List Nat → (Nat → FaceBuf) → Option (Nat → FaceBuf)
  | [], pf => some pf
  | p :: ps, pf =>
    if p < n then
      match (pf p).push iface with
      | none => none
      | some b => fillCorners n iface ps (fun q => if q = p then b else pf q)
    else none

/-- Filling pass (MeshingPolyMesh.cpp:1188-1197). -/
def fillFaces (n : Nat) : Nat → List (List Nat) → (Nat → FaceBuf) → Option (Nat → FaceBuf)
  | _, [], pf => some pf
  | iface, f :: fs, pf =>
    match corners3 f with
    | none => none
    | some cs =>
      match fillCorners n iface cs pf with
      | none => none
      | some pf' => fillFaces n (iface + 1) fs pf'

/-- `build_point_faces` (MeshingPolyMesh.cpp:1159-1196 and 1198-1235, and the same code in
`validate_surface_mesh`, MeshingVoroCrustSampler.cpp:3606-3636). -/
def buildPointFaces (n : Nat) (faces : List (List Nat)) : Option (Nat → FaceBuf) :=
  match countFaces n faces (fun _ => 0) with
  | none => none
  | some cnt => fillFaces n 0 faces (fun p => { cap := cnt p, items := [] })

/-- Directed edges of a face, the last one leading back to `first`
(MeshingPolyMesh.cpp:1622-1627). -/
def edgesFrom (first : Nat) : List Nat → List (Nat × Nat)
  | [] => []
  | [a] => [(a, first)]
  | a :: b :: f => (a, b) :: edgesFrom first (b :: f)

/-- Directed edges of a face in the order of the code. -/
def faceEdges : List Nat → List (Nat × Nat)
  | [] => []
  | a :: f => edgesFrom a (a :: f)

/-- The two increments of `get_num_edge_faces` for one directed edge (MeshingPolyMesh.cpp:1629-1631). -/
def edgeHit (i j : Nat) (e : Nat × Nat) : Nat :=
  (if e.1 = i ∧ e.2 = j then 1 else 0) + (if e.1 = j ∧ e.2 = i then 1 else 0)

/-- Loop over the faces of a point (MeshingPolyMesh.cpp:1618-1633). -/
def countEdgeFaces (faces : List (List Nat)) (i j : Nat) : List Nat → Nat → Option Nat
  | [], acc => some acc
  | k :: ks, acc =>
    match faces[k]? with
    | none => none
    | some f => countEdgeFaces faces i j ks (acc + ((faceEdges f).map (edgeHit i j)).sum)

/-- `get_num_edge_faces` (MeshingPolyMesh.cpp:1613-1636, 1638-1661). -/
def numEdgeFaces (n : Nat) (faces : List (List Nat)) (pf : Nat → FaceBuf) (i j : Nat) : Option Nat :=
  if i < n then countEdgeFaces faces i j (pf i).items 0 else none

/-- The match test of `get_edge_faces` (MeshingPolyMesh.cpp:1682). -/
def edgeMatch (i j : Nat) (e : Nat × Nat) : Bool := (e.1 == i && e.2 == j) || (e.1 == j && e.2 == i)

/-- Filling loop of `get_edge_faces` (MeshingPolyMesh.cpp:1670-1689); the `break` means one entry per
visited face. -/
def fillEdgeFaces (faces : List (List Nat)) (i j : Nat) : List Nat → FaceBuf → Option FaceBuf
  | [], b => some b
  | k :: ks, b =>
    match faces[k]? with
    | none => none
    | some f =>
      if (faceEdges f).any (edgeMatch i j) then
        match b.push k with
        | none => none
        | some b' => fillEdgeFaces faces i j ks b'
      else fillEdgeFaces faces i j ks b

/-- `get_edge_faces` (MeshingPolyMesh.cpp:1663-1691, 1693-1721).  The reported number (`edge_faces[0]`)
is `cap`; cells after the written `items` are uninitialised. -/
def edgeFaces (n : Nat) (faces : List (List Nat)) (pf : Nat → FaceBuf) (i j : Nat) : Option FaceBuf :=
  match numEdgeFaces n faces pf i j with
  | none => none
  | some c => fillEdgeFaces faces i j (pf i).items { cap := c, items := [] }

/-- Directed edges `(faces[iface][i], faces[iface][i % 3 + 1])`, `i = 1..3`
(MeshingPolyMesh.cpp:1350-1354). -/
def edges3 : List Nat → Option (List (Nat × Nat))
  | a :: b :: c :: _ => some [(a, b), (b, c), (c, a)]
  | _ => none

/-- Inner loop of `water_tight_model` (MeshingPolyMesh.cpp:1350-1361). -/
def tightEdges (n : Nat) (faces : List (List Nat)) (pf : Nat → FaceBuf) : List (Nat × Nat) → Option Bool
  | [] => some true
  | e :: es =>
    match numEdgeFaces n faces pf e.1 e.2 with
    | none => none
    | some c => if c = 1 then some false else tightEdges n faces pf es

/-- Outer loop of `water_tight_model` (MeshingPolyMesh.cpp:1348-1362). -/
def tightFaces (n : Nat) (faces : List (List Nat)) (pf : Nat → FaceBuf) : List (List Nat) → Option Bool
  | [] => some true
  | f :: fs =>
    match edges3 f with
    | none => none
    | some es =>
      match tightEdges n faces pf es with
      | none => none
      | some false => some false
      | some true => tightFaces n faces pf fs

/-- `water_tight_model` (MeshingPolyMesh.cpp:1344-1406).  The rest of the function is under
`while (false)`, so the final result is `no_skinny = true`. -/
def waterTight (n : Nat) (faces : List (List Nat)) (pf : Nat → FaceBuf) : Option Bool :=
  tightFaces n faces pf faces

/-! ## Validation of the generated surface -/

/-- State of the checking loop of `validate_surface_mesh`: `water_tight` and the radii of the surface
spheres. -/
structure ValState where
  tight : Bool
  radius : Nat → ℝ

/-- `sphere[3] *= 0.95` when the end point is a surface sphere (MeshingVoroCrustSampler.cpp:3648-3652). -/
noncomputable def shrink (ns p : Nat) (r : Nat → ℝ) : Nat → ℝ :=
  fun q => if q = p ∧ p < ns then r q * (95 / 100) else r q

/-- One edge (MeshingVoroCrustSampler.cpp:3646-3679). -/
noncomputable def validateEdge (ns c : Nat) (e : Nat × Nat) (s : ValState) : ValState :=
  if c = 1 then
    { tight := s.tight && !(decide (e.1 < ns) || decide (e.2 < ns)), radius := shrink ns e.2 (shrink ns e.1 s.radius) }
  else if 2 < c ∧ (e.1 < ns ∨ e.2 < ns) then
    { tight := false, radius := shrink ns e.2 (shrink ns e.1 s.radius) }
  else s

/-- Inner loop (MeshingVoroCrustSampler.cpp:3640-3680). -/
noncomputable def validateEdges (n ns : Nat) (faces : List (List Nat)) (pf : Nat → FaceBuf) : List (Nat × Nat) → ValState → Option ValState
  | [], s => some s
  | e :: es, s =>
    match numEdgeFaces n faces pf e.1 e.2 with
    | none => none
    | some c => validateEdges n ns faces pf es (validateEdge ns c e s)

/-- Outer loop (MeshingVoroCrustSampler.cpp:3638-3681). -/
noncomputable def validateFaces (n ns : Nat) (faces : List (List Nat)) (pf : Nat → FaceBuf) : List (List Nat) → ValState → Option ValState
  | [], s => some s
  | f :: fs, s =>
    match edges3 f with
    | none => none
    | some es =>
      match validateEdges n ns faces pf es s with
      | none => none
      | some s' => validateFaces n ns faces pf fs s'

/-- `validate_surface_mesh` (MeshingVoroCrustSampler.cpp:3581-3702) with `ns` surface spheres out of `n`
spheres; returns the verdict and the new radii.  Saving the mesh is not modelled. -/
noncomputable def validateSurface (n ns : Nat) (faces : List (List Nat)) (radius : Nat → ℝ) : Option ValState :=
  match buildPointFaces n faces with
  | none => none
  | some pf => validateFaces n ns faces pf faces { tight := true, radius := radius }

/-! ## Isolated points -/

/-- The renumbering loop (MeshingPolyMesh.cpp:1757-1768): kept points so far and the table
`point_new_index` (`none` = never written). -/
def renumber {α : Type} (pf : Nat → FaceBuf) : List α → Nat → List α × List (Option Nat) → List α × List (Option Nat)
  | [], _, s => s
  | x :: xs, i, (kept, tab) =>
    if (pf i).items.length = 0 then renumber pf xs (i + 1) (kept, tab ++ [none])
    else renumber pf xs (i + 1) (kept ++ [x], tab ++ [some kept.length])

/-- Re-indexing a face (MeshingPolyMesh.cpp:1770-1778); reading out of range or a cell never written is
undefined. -/
def reindexFace (tab : List (Option Nat)) (f : List Nat) : Option (List Nat) :=
  f.mapM (fun c => match tab[c]? with
    | some (some k) => some k
    | _ => none)

/-- `remove_isolated_points` (MeshingPolyMesh.cpp:1743-1791): new points, faces and point-face lists. -/
def removeIsolated {α : Type} (points : List α) (faces : List (List Nat)) (pf : Nat → FaceBuf) :
    Option (List α × List (List Nat) × (Nat → FaceBuf)) :=
  if (List.range points.length).all (fun i => !((pf i).items.length == 0)) then some (points, faces, pf)
  else
    match faces.mapM (reindexFace (renumber pf points 0 ([], [])).2) with
    | none => none
    | some fs =>
      match buildPointFaces (renumber pf points 0 ([], [])).1.length fs with
      | none => none
      | some pf' => some ((renumber pf points 0 ([], [])).1, fs, pf')

end VoroCrust
