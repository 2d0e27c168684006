import Verif.Model.Exodus

/-!
# Model of the file written by `save_exodus_file` (MeshingVoronoiMesher.cpp:3155-3431) and of the calls with lists of the writer class (MeshingExodusIO.cpp:113-150, 226-429)

The Exodus library is modelled by what it reads from the arrays it is given, as documented: as many entries as the parameters of the file, the block or the set say.  A read past the end of an array is
undefined: `none`.  Errors of the library (then the program exits) are left out.
-/

namespace VoroCrust

/-- The contents of the file: the parameters, the nodes, the face block and the element block. -/
structure ExoStored (R : Type) where
  numNodes : Int
  numFaces : Int
  numElems : Int
  numBlocks : Int
  nodes : List (R × R × R)
  faceConn : List Int
  faceCount : List Int
  elemConn : List Int
  elemCount : List Int
  deriving DecidableEq

/-- What the library reads from an array: `n` entries. -/
def libRead {α : Type} (n : Int) (arr : List α) : Option (List α) := if n < 0 then none else if n.toNat ≤ arr.length then some (arr.take n.toNat) else none

/-- The loop over the vertices (MeshingVoronoiMesher.cpp:3165-3170): `x`, `y`, `z` as one list; `fl` is `float(.)`. -/
def exoNodes {V R : Type} (fl : V → R) (vs : List V) (cap : Int) : Nat → Nat → Option (List (R × R × R))
  | 0, _ => some []
  | n + 1, i =>
    if (i : Int) < cap then
      match vs[i * 3]?, vs[i * 3 + 1]?, vs[i * 3 + 2]?, exoNodes fl vs cap n (i + 1) with
      | some a, some b, some c, some l => some ((fl a, fl b, fl c) :: l)
      | _, _, _, _ => none
    else none

/-- The calls of the library (MeshingVoronoiMesher.cpp:3246-3424): the numbers and the arrays. -/
def exoHand {R : Type} (nn nf ne fTotal eTotal : Int) (xyz : List (R × R × R)) (fn fe cn ce : List Int) : Option (ExoStored R) :=
  match libRead nn xyz, libRead fTotal fe, libRead nf fn, libRead eTotal ce, libRead ne cn with
  | some xyz, some fe, some fn, some ce, some cn => some { numNodes := nn, numFaces := nf, numElems := ne, numBlocks := 1, nodes := xyz, faceConn := fe, faceCount := fn, elemConn := ce, elemCount := cn }
  | _, _, _, _, _ => none

/-- `save_exodus_file` (MeshingVoronoiMesher.cpp:3155-3431). -/
def exoStore {V R : Type} (fl : V → R) (nv : Nat) (vs : List V) (faces : List (List Nat)) (cells : List (Nat × List Nat)) : Option (ExoStored R) :=
  match exoNodes fl vs (castInt nv) nv 0, exoFaces faces, exoCells cells with
  | some xyz, some (fn, fe), some (cn, ce) => exoHand (castInt nv) (castInt faces.length) (castInt (exoCellCount cells).1) (castInt fe.length) (castInt ce.length) xyz fn fe cn ce
  | _, _, _ => none

/-! ## The writer class -/

/-- How a call of the writer ends: an exception of the writer, undefined behaviour, or what the library stores. -/
inductive WriterEnd (α : Type) where
  | threw
  | undefined
  | stored (a : α)
  deriving DecidableEq

/-- `strcpy(par.title, title.c_str())` (MeshingExodusIO.cpp:127) into an array of `MAX_LINE_LENGTH + 1 = 81` characters. -/
def initTitle (exoid : Int) (title : List Char) : WriterEnd (List Char) := if exoid < 0 then .threw else if title.length + 1 ≤ 81 then .stored title else .undefined

/-- The numbers of a block that `ex_get_block` returns: entries, and nodes, edges and faces for each. -/
structure BlockParam where
  entries : Nat
  nodes : Nat
  edges : Nat
  faces : Nat

/-- `if (list != NULL && list->size() > total) throw` (MeshingExodusIO.cpp:306-314). -/
def tooMany (total : Nat) : Option (List Int) → Bool
  | none => false
  | some l => decide (l.length > total)

/-- The copy of a list handed to the library, which reads `total` numbers from it; nothing for `NULL` (MeshingExodusIO.cpp:317-332). -/
def connRead (total : Nat) : Option (List Int) → Option (List Int)
  | none => some []
  | some l => libRead total l

/-- `setBlockConnectivity` (MeshingExodusIO.cpp:276-338) for a block of a known type; `none` if there is no block of that number.  The products fit into an `int`. -/
def blockConnectivity (p : Option BlockParam) (node edge face : Option (List Int)) : WriterEnd (List Int × List Int × List Int) :=
  match p with
  | none => .threw
  | some p =>
    if tooMany (p.entries * p.nodes) node || tooMany (p.entries * p.edges) edge || tooMany (p.entries * p.faces) face then .threw
    else
      match connRead (p.entries * p.nodes) node, connRead (p.entries * p.edges) edge, connRead (p.entries * p.faces) face with
      | some a, some b, some c => .stored (a, b, c)
      | _, _, _ => .undefined

/-- `setNodeMap` and `setElementMap` (MeshingExodusIO.cpp:339-385): the library reads a number for each of the `n` nodes or elements. -/
def setIdMap (exoid : Int) (n : Nat) (map : List Int) : WriterEnd (List Int) :=
  if exoid < 0 then .threw
  else if map.length = 0 then .threw
  else
    match libRead n map with
    | some l => .stored l
    | none => .undefined

/-- `defineNodeSet` (MeshingExodusIO.cpp:387-404). -/
def defineNodeSet (nodes : List Int) : WriterEnd (List Int) :=
  if nodes.length = 0 then .threw
  else
    match libRead nodes.length nodes with
    | some l => .stored l
    | none => .undefined

/-- What `ex_put_set` stores for a side set of `n` sides: the first list are the elements, the second list their sides. -/
def libSideSet (n : Nat) (elems sides : List Int) : WriterEnd (List (Int × Int)) :=
  match libRead n elems, libRead n sides with
  | some a, some b => .stored (a.zip b)
  | _, _ => .undefined

/-- `defineSideSet` (MeshingExodusIO.cpp:407-428).  The number of the set is that of the second call of `ex_put_set_param`. -/
def defineSideSet (elementsInSet sidesInSet : List Int) : WriterEnd (List (Int × Int)) :=
  if sidesInSet.length = 0 then .threw else libSideSet sidesInSet.length sidesInSet elementsInSet

end VoroCrust
