import Verif.Model.Mesh
import Verif.Model.Geometry

/-!
# Model of the sharp features of a clean model (`detect_features_generate_point_clouds_clean`, MeshingVoroCrustSampler.cpp:247-408)

Faces and their incidence are those of `Verif.Model.Mesh`.  The two angle tests are parameters: `sharp fi fj` for `dot_product(normal fi, normal fj) < smooth_angle_threshold` (290-291, see `dihedralSharp`) and `bend a p b` for
`-cos_angle(points[a], points[p], points[b]) < smooth_angle_threshold` (400-401, see `bendSharp`).  Appending with `add_entry` (C01) is appending to a list.  `none` is undefined behaviour.
-/

namespace VoroCrust

/-- The end points in ascending order (MeshingVoroCrustSampler.cpp:280-281). -/
def edgePair (e : Nat × Nat) : Nat × Nat := if e.1 < e.2 then e else (e.2, e.1)

/-- One directed edge of a face (MeshingVoroCrustSampler.cpp:271-300). -/
def sharpEdge (n : Nat) (faces : List (List Nat)) (pf : Nat → FaceBuf) (sharp : Nat → Nat → Bool) (e : Nat × Nat) : Option (List (Nat × Nat)) :=
  match numEdgeFaces n faces pf e.1 e.2 with
  | none => none
  | some c =>
    if c ≠ 2 then some [edgePair e]
    else if e.1 < e.2 then
      match edgeFaces n faces pf e.1 e.2 with
      | some ⟨_, fi :: fj :: _⟩ => some (if sharp fi fj then [edgePair e] else [])
      | _ => none
    else some []

/-- The loop over the edges of a face. -/
def sharpOfEdges (n : Nat) (faces : List (List Nat)) (pf : Nat → FaceBuf) (sharp : Nat → Nat → Bool) : List (Nat × Nat) → Option (List (Nat × Nat))
  | [] => some []
  | e :: es =>
    match sharpEdge n faces pf sharp e, sharpOfEdges n faces pf sharp es with
    | some l, some l' => some (l ++ l')
    | _, _ => none

/-- The loop over the faces (MeshingVoroCrustSampler.cpp:267-303). -/
def sharpOfFaces (n : Nat) (faces : List (List Nat)) (pf : Nat → FaceBuf) (sharp : Nat → Nat → Bool) : List (List Nat) → Option (List (Nat × Nat))
  | [] => some []
  | f :: fs =>
    match edges3 f with
    | none => none
    | some es =>
      match sharpOfEdges n faces pf sharp es, sharpOfFaces n faces pf sharp fs with
      | some l, some l' => some (l ++ l')
      | _, _ => none

/-- The table of sharp edges (MeshingVoroCrustSampler.cpp:257-303). -/
def sharpEdges (n : Nat) (faces : List (List Nat)) (sharp : Nat → Nat → Bool) : Option (List (Nat × Nat)) :=
  match buildPointFaces n faces with
  | none => none
  | some pf => sharpOfFaces n faces pf sharp faces

/-- The test of two faces (MeshingVoroCrustSampler.cpp:290-291). -/
noncomputable def dihedralSharp (th : ℝ) (normal : Nat → V3) (fi fj : Nat) : Bool := decide (dot3 (normal fi) (normal fj) < th)

/-! ## Sharp corners -/

/-- The counting loop (MeshingVoroCrustSampler.cpp:312-319). -/
def countEnds (n : Nat) : List (Nat × Nat) → (Nat → Nat) → Option (Nat → Nat)
  | [], cnt => some cnt
  | e :: es, cnt =>
    match countCorners n [e.1, e.2] cnt with
    | none => none
    | some cnt' => countEnds n es cnt'

/-- One step of the filling loop (MeshingVoroCrustSampler.cpp:330-340): both cells are written before both counters go up, so an edge from a point to itself would leave a cell unwritten; this is taken as undefined here. -/
def fillEnd (n iedge : Nat) (e : Nat × Nat) (pe : Nat → FaceBuf) : Option (Nat → FaceBuf) :=
  if e.1 = e.2 then none
  else fillCorners n iedge [e.1, e.2] pe

/-- The filling loop (MeshingVoroCrustSampler.cpp:328-341). -/
def fillEnds (n : Nat) : Nat → List (Nat × Nat) → (Nat → FaceBuf) → Option (Nat → FaceBuf)
  | _, [], pe => some pe
  | iedge, e :: es, pe =>
    match fillEnd n iedge e pe with
    | none => none
    | some pe' => fillEnds n (iedge + 1) es pe'

/-- `point_sharp_edges` (MeshingVoroCrustSampler.cpp:308-341). -/
def pointEdges (n : Nat) (es : List (Nat × Nat)) : Option (Nat → FaceBuf) :=
  match countEnds n es (fun _ => 0) with
  | none => none
  | some cnt => fillEnds n 0 es (fun p => { cap := cnt p, items := [] })

/-- The entries of a point, read from the table of edges. -/
def endsAt (es : List (Nat × Nat)) : List Nat → Option (List (Nat × Nat))
  | [] => some []
  | k :: ks =>
    match es[k]?, endsAt es ks with
    | some e, some l => some (e :: l)
    | _, _ => none

/-- The number of entries that differ from all before (MeshingVoroCrustSampler.cpp:346-364). -/
def recount : List (Nat × Nat) → List (Nat × Nat) → Nat
  | _, [] => 0
  | seen, e :: l => (if e ∈ seen then 0 else 1) + recount (seen ++ [e]) l

/-- The first entry that differs from all before (MeshingVoroCrustSampler.cpp:375-389). -/
def firstNew : List (Nat × Nat) → List (Nat × Nat) → Option (Nat × Nat)
  | _, [] => none
  | seen, e :: l => if e ∈ seen then firstNew (seen ++ [e]) l else some e

/-- The other end (MeshingVoroCrustSampler.cpp:390-399). -/
def otherEnd (p : Nat) (e : Nat × Nat) : Nat := if e.1 ≠ p then e.1 else e.2

/-- The test of two edges (MeshingVoroCrustSampler.cpp:373-407); without a second edge the first of the table is used (`jedge(0)`, 374). -/
def cornerOfTwo (es : List (Nat × Nat)) (bend : Nat → Nat → Nat → Bool) (p : Nat) : List (Nat × Nat) → Option Bool
  | [] => none
  | e :: l =>
    match firstNew [e] l, es[0]? with
    | some e', _ => some (bend (otherEnd p e) p (otherEnd p e'))
    | none, some e' => some (bend (otherEnd p e) p (otherEnd p e'))
    | none, none => none

/-- One point (MeshingVoroCrustSampler.cpp:343-408). -/
def isCorner (es : List (Nat × Nat)) (bend : Nat → Nat → Nat → Bool) (p : Nat) (b : FaceBuf) : Option Bool :=
  match endsAt es b.items with
  | none => none
  | some l => if recount [] l > 0 ∧ recount [] l ≠ 2 then some true else if recount [] l = 2 then cornerOfTwo es bend p l else some false

/-- The loop over the points. -/
def sharpCornerLoop (es : List (Nat × Nat)) (bend : Nat → Nat → Nat → Bool) (pe : Nat → FaceBuf) : Nat → Option (List Nat)
  | 0 => some []
  | p + 1 =>
    match sharpCornerLoop es bend pe p, isCorner es bend p (pe p) with
    | some l, some true => some (l ++ [p])
    | some l, some false => some l
    | _, _ => none

/-- The sharp corners of a table of sharp edges (MeshingVoroCrustSampler.cpp:305-409). -/
def sharpCorners (n : Nat) (es : List (Nat × Nat)) (bend : Nat → Nat → Nat → Bool) : Option (List Nat) :=
  match pointEdges n es with
  | none => none
  | some pe => sharpCornerLoop es bend pe n

/-- `cos_angle` (MeshingGeometricalMethods.cpp:81-96) in dimension 3. -/
noncomputable def cosAngle (x y z : V3) : ℝ :=
  if Real.sqrt (dot3 (x - y) (x - y)) < 1e-10 ∨ Real.sqrt (dot3 (y - z) (y - z)) < 1e-10 then 1
  else dot3 (x - y) (z - y) / (Real.sqrt (dot3 (x - y) (x - y)) * Real.sqrt (dot3 (y - z) (y - z)))

/-- The test of a point (MeshingVoroCrustSampler.cpp:400-401). -/
noncomputable def bendSharp (th : ℝ) (x : Nat → V3) (a p b : Nat) : Bool := decide (-cosAngle (x a) (x p) (x b) < th)

end VoroCrust
