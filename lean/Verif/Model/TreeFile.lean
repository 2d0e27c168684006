import Verif.Model.Text

/-!
# Model of the records of a search tree and of the files they are written to and read from

`MeshingSmartTree` keeps for every point its numbers (`_points`), a direction (`_points_normal`) and a row of
attributes (`_points_attrib`).  Simplified: the search links are left to `Model/KdTree.lean`, the growth of the arrays
to `addTreePoint` there; the bounding box (`_xmin`, `_xmax`) is left out.  How numbers are printed and parsed is an
arbitrary function.
-/

namespace VoroCrust

/-- What the tree keeps for one point.  `normal = none`: the array of directions, or the entry, is null.
`attrib = none`: null entry.  The length of a list is the length of the allocated array (of `normal`: of the part that
is used, `_num_dim`). -/
structure PointRec (V : Type) where
  coords : List V
  normal : Option (List V)
  attrib : Option (List Nat)
  deriving DecidableEq

/-- `for (i = 0; i < n; i++) ... l[i] ...`: undefined when the array is shorter. -/
def readN {α : Type} (l : List α) (n : Nat) : Option (List α) := if n ≤ l.length then some (l.take n) else none

/-- The direction stored with a point (MeshingSmartTree.cpp:420-421, 448-452): zeros when none is given. -/
def storedNormal {V : Type} (nd : Nat) (zero : V) : Option (List V) → Option (List V)
  | none => some (List.replicate nd zero)
  | some n => readN n nd

/-- The attributes stored with a point (MeshingSmartTree.cpp:424-431, 454-460): entry 0 is the number of entries,
itself included. -/
def storedAttrib : Option (List Nat) → Option (Option (List Nat))
  | none => some none
  | some a =>
    match a[0]? with
    | none => none
    | some k => (readN a k).map some

/-- `add_tree_point(num_dim, x, normal, attrib)` (MeshingSmartTree.cpp:388-496), the records.  `_xmin` and `_xmax` are
updated from the first `_num_dim` entries of `x`, and the direction is stored in an array of `num_dim` entries, so
`num_dim < _num_dim` is undefined. -/
def addRecord {V : Type} (nd numDim : Nat) (zero : V) (x : List V) (normal : Option (List V)) (attrib : Option (List Nat))
    (recs : List (PointRec V)) : Option (List (PointRec V)) :=
  if numDim < nd then none
  else
    match readN x numDim, storedNormal nd zero normal, storedAttrib attrib with
    | some c, some n, some a => some (recs ++ [{ coords := c, normal := some n, attrib := a }])
    | _, _, _ => none

/-- `get_tree_point_attrib(point, i, value)` (MeshingSmartTree.cpp:510-516): `none` is undefined behaviour, `some none`
the answer `false`. -/
def getAttrib {V : Type} (recs : List (PointRec V)) (p i : Nat) : Option (Option Nat) :=
  match recs[p]? with
  | none => none
  | some r =>
    match r.attrib with
    | none => some none
    | some a =>
      match a[0]? with
      | none => none
      | some k => if k ≤ i then some none else (a[1 + i]?).map some

/-- `set_tree_point_attrib(point, i, size_t)` (MeshingSmartTree.cpp:523-527). -/
def setAttrib {V : Type} (recs : List (PointRec V)) (p i v : Nat) : Option (List (PointRec V)) :=
  match recs[p]? with
  | none => none
  | some r =>
    match r.attrib with
    | none => none
    | some a => if 1 + i < a.length then some (recs.set p { r with attrib := some (a.set (1 + i) v) }) else none

/-! ## Writing -/

/-- `for (...) file << ", " << v`. -/
def sepAll {α : Type} (shw : α → List Char) : List α → List Char
  | [] => []
  | v :: vs => ',' :: ' ' :: (shw v ++ sepAll shw vs)

/-- The names of the columns (MeshingSmartTree.cpp:123-132): coordinates, direction, and as many attributes as the
first point has. -/
def headerLine {V : Type} (showN : Nat → List Char) (nd numDim : Nat) (recs : List (PointRec V)) : Option (List Char) :=
  let names := "x1coord".toList ++ sepAll (fun i => 'x' :: (showN (i + 2) ++ "coord".toList)) (List.range (numDim - 1))
    ++ sepAll (fun i => 'n' :: showN (i + 1)) (List.range nd)
  match recs.head?.bind PointRec.attrib with
  | none => some names
  | some a =>
    match a[0]? with
    | none => none
    | some k => some (names ++ sepAll (fun i => "attrib".toList ++ showN (i + 1)) (List.range k))

/-- The direction part of a row (MeshingSmartTree.cpp:140-147). -/
def normalText {V : Type} (showV : V → List Char) (nd : Nat) : Option (List V) → Option (List Char)
  | none => some (sepAll (fun _ => "0.0".toList) (List.range nd))
  | some n => (readN n nd).map (sepAll showV)

/-- The attribute part of a row (MeshingSmartTree.cpp:149-153). -/
def attribText (showN : Nat → List Char) : Option (List Nat) → Option (List Char)
  | none => some []
  | some a =>
    match a[0]? with
    | none => none
    | some k => (readN a k).map (sepAll showN)

/-- One row (MeshingSmartTree.cpp:137-155). -/
def saveRow {V : Type} (showV : V → List Char) (showN : Nat → List Char) (nd numDim : Nat) (r : PointRec V) : Option (List Char) :=
  match r.coords with
  | [] => none
  | c :: cs =>
    match readN cs (numDim - 1), normalText showV nd r.normal, attribText showN r.attrib with
    | some cs, some n, some a => some (showV c ++ sepAll showV cs ++ n ++ a)
    | _, _, _ => none

/-- The loop over the points (MeshingSmartTree.cpp:135-156). -/
def saveRows {V : Type} (showV : V → List Char) (showN : Nat → List Char) (nd numDim : Nat) : List (PointRec V) → Option (List Char)
  | [] => some []
  | r :: rs =>
    match saveRow showV showN nd numDim r, saveRows showV showN nd numDim rs with
    | some l, some ls => some (l ++ '\n' :: ls)
    | _, _ => none

/-- `save_tree_csv` (MeshingSmartTree.cpp:118-159). -/
def saveTree {V : Type} (showV : V → List Char) (showN : Nat → List Char) (nd numDim : Nat) (recs : List (PointRec V)) :
    Option (List Char) :=
  match headerLine showN nd numDim recs, saveRows showV showN nd numDim recs with
  | some h, some rs => some (h ++ '\n' :: rs)
  | _, _ => none

/-! ## Reading -/

/-- One row of numbers (MeshingSmartTree.cpp:269-280): `n` is the number of columns of the header; missing tokens are
undefined. -/
def loadRow {V : Type} (parse : Tok → V) (parseN : Tok → Nat) (zero : V) (nd numDim n : Nat) (t : List Tok) (recs : List (PointRec V)) :
    Option (List (PointRec V)) :=
  match readN t numDim with
  | none => none
  | some x =>
    match if numDim + nd ≤ n then (readN (t.drop numDim) nd).map some else some none with
    | none => none
    | some normal =>
      match if numDim + nd < n then (readN (t.drop (numDim + nd)) (n - numDim - nd)).map some else some none with
      | none => none
      | some attrib => addRecord nd numDim zero (x.map parse) (normal.map (List.map parse)) (attrib.map (List.map parseN)) recs

/-- The loop over the lines after the header (MeshingSmartTree.cpp:249-282). -/
def loadRows {V : Type} (parse : Tok → V) (parseN : Tok → Nat) (zero : V) (nd numDim n : Nat) :
    List (List Char) → List (PointRec V) → Option (List (PointRec V))
  | [], recs => some recs
  | l :: ls, recs =>
    match getTokens l ',' with
    | none => none
    | some t =>
      if t.length = 0 then loadRows parse parseN zero nd numDim n ls recs
      else
        match loadRow parse parseN zero nd numDim n t recs with
        | none => none
        | some recs => loadRows parse parseN zero nd numDim n ls recs

/-- `load_tree_csv` (MeshingSmartTree.cpp:234-293) of a file that can be opened, into a tree that may have points
already; the first line only gives the number of columns (255-267). -/
def loadTree {V : Type} (parse : Tok → V) (parseN : Tok → Nat) (zero : V) (nd numDim : Nat) (file : List Char)
    (recs : List (PointRec V)) : Option (List (PointRec V)) :=
  match fileLines file with
  | [] => some recs
  | h :: ls =>
    match getTokens h ',' with
    | none => none
    | some t => loadRows parse parseN zero nd numDim t.length ls recs

end VoroCrust
