import Verif.Model.Mesh

/-!
# Model of `impose_consistent_orientation` and `adjust_cad_orientation`
(MeshingPolyMesh.cpp:1277-1342, 1821-1863)
-/

namespace VoroCrust

/-- State of the propagation: faces, `fixed` flags, and whether a face was flipped in the current sweep
(`done == false`, MeshingPolyMesh.cpp:1297). -/
structure OrState where
  faces : List (List Nat)
  fixed : List Bool
  flipped : Bool
deriving DecidableEq

/-- The loop over the edges of `jface` (MeshingPolyMesh.cpp:1321-1334): the first edge running from `pi` to `pj`
has its two ends swapped.  `none`: no such edge. -/
def flipEdge (pi pj : Nat) : List Nat → Option (List Nat)
  | a :: b :: c :: r =>
    if a = pi ∧ b = pj then some (b :: a :: c :: r)
    else if b = pi ∧ c = pj then some (a :: c :: b :: r)
    else if c = pi ∧ a = pj then some (c :: b :: a :: r)
    else none
  | _ => none

/-- Fixing the neighbour `jface` (MeshingPolyMesh.cpp:1321-1335). -/
def fixFace (s : OrState) (jface : Nat) (e : Nat × Nat) : Option OrState :=
  match s.faces[jface]? with
  | none => none
  | some f =>
    match flipEdge e.1 e.2 f with
    | some f' => some { faces := s.faces.set jface f', fixed := s.fixed.set jface true, flipped := true }
    | none => some { s with fixed := s.fixed.set jface true }

/-- `edge_faces[1]`, or `edge_faces[2]` if that is `iface` (MeshingPolyMesh.cpp:1314-1315); reading a cell that was
not written is undefined. -/
def otherFace (iface : Nat) (b : FaceBuf) : Option Nat :=
  match b.items[0]? with
  | none => none
  | some k => if k = iface then b.items[1]? else some k

/-- One edge of a fixed face (MeshingPolyMesh.cpp:1303-1336). -/
def orientEdge (n : Nat) (pf : Nat → FaceBuf) (iface : Nat) (s : OrState) (e : Nat × Nat) : Option OrState :=
  match numEdgeFaces n s.faces pf e.1 e.2 with
  | none => none
  | some c =>
    if c ≠ 2 then some s
    else
      match edgeFaces n s.faces pf e.1 e.2 with
      | none => none
      | some b =>
        match otherFace iface b with
        | none => none
        | some jface =>
          match s.fixed[jface]? with
          | none => none
          | some true => some s
          | some false => fixFace s jface e

/-- The edges of one face in turn (MeshingPolyMesh.cpp:1301-1337). -/
def orientEdges (n : Nat) (pf : Nat → FaceBuf) (iface : Nat) : List (Nat × Nat) → OrState → Option OrState
  | [], s => some s
  | e :: es, s =>
    match orientEdge n pf iface s e with
    | none => none
    | some s' => orientEdges n pf iface es s'

/-- One face of the sweep (MeshingPolyMesh.cpp:1299-1337).  The code reads the corners of `iface` again for each
edge; they cannot have changed, because only faces not yet fixed are changed. -/
def orientFace (n : Nat) (pf : Nat → FaceBuf) (iface : Nat) (s : OrState) : Option OrState :=
  match s.fixed[iface]?, s.faces[iface]? with
  | some true, some f =>
    match edges3 f with
    | none => none
    | some es => orientEdges n pf iface es s
  | some false, some _ => some s
  | _, _ => none

/-- The sweep over the faces (MeshingPolyMesh.cpp:1297-1338). -/
def orientSweep (n : Nat) (pf : Nat → FaceBuf) : List Nat → OrState → Option OrState
  | [], s => some s
  | k :: ks, s =>
    match orientFace n pf k s with
    | none => none
    | some s' => orientSweep n pf ks s'

/-- The outer loop (MeshingPolyMesh.cpp:1284-1340): mark the first face that is not fixed, sweep, and stop when
there is none or the sweep flipped nothing.  `none` also when the fuel runs out. -/
def orientLoop (n : Nat) (pf : Nat → FaceBuf) : Nat → OrState → Option OrState
  | 0, _ => none
  | fuel + 1, s =>
    match s.fixed.idxOf? false with
    | none => some s
    | some k =>
      match orientSweep n pf (List.range s.faces.length) { s with fixed := s.fixed.set k true, flipped := false } with
      | none => none
      | some s' => if s'.flipped then orientLoop n pf fuel s' else some s'

/-- `impose_consistent_orientation` up to the call of `adjust_cad_orientation` (MeshingPolyMesh.cpp:1277-1340).
`fixed[0]` is never initialised (1281-1282): `garbage` is its value. -/
def orient (n : Nat) (pf : Nat → FaceBuf) (garbage : Bool) (faces : List (List Nat)) : Option OrState :=
  orientLoop n pf (faces.length + 1)
    { faces := faces, fixed := (List.replicate faces.length false).set 0 garbage, flipped := false }

end VoroCrust
