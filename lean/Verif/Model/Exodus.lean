import Mathlib.Data.Int.Init
import Mathlib.Data.List.Basic

/-!
# Model of the Exodus output: the writer class (MeshingExodusIO.cpp) and `save_exodus_file` (MeshingVoronoiMesher.cpp:3155-3431)

The Exodus library is a trace of calls.  `ex_create` returns any number; that a handle it returns is not in use is a condition on traces (`LibOk` in `Verif.Props.Exodus`).
-/

namespace VoroCrust

/-- Calls of the library that concern a handle. -/
inductive LibCall where
  | create (h : Int)
  | put (h : Int)
  | close (h : Int)
  deriving DecidableEq

/-- The state of the writer (MeshingExodusIO.h: `activeFilePath`, `exoid`). -/
structure ExoWriter where
  exoid : Int
  path : String
  deriving DecidableEq

/-- The constructor (MeshingExodusIO.cpp:39-43). -/
def ExoWriter.new : ExoWriter := ⟨-1, ""⟩

/-- `hasOpenFile` (MeshingExodusIO.cpp:436-439). -/
def ExoWriter.hasOpenFile (w : ExoWriter) : Bool := decide (w.exoid ≥ 0)

/-- Calls of the writer: `result` is what `ex_create` returns.  `setBlockName` stands for the calls without a test of the handle (`setCoordinatesOnAxis`, `setCoordinates`, `setCoordinateNames`, `defineBlock`, `setBlockName`,
`setBlockConnectivity`, `defineNodeSet`, `defineSideSet`), `initializeFile` for those with one (`setNodeMap`, `setElementMap`). -/
inductive ExoOp where
  | openFile (path : String) (result : Int)
  | initializeFile
  | setBlockName
  | closeFile
  deriving DecidableEq

/-- What a call does: the new state, the calls of the library, whether it throws by a test of its own (MeshingExodusIO.cpp:75-113, 119-121, 265-271, 344-345, 425-434). -/
def exoStep (w : ExoWriter) : ExoOp → ExoWriter × List LibCall × Bool
  | .openFile path result => if result < 0 then (w, [], true) else (⟨result, path⟩, [.create result], false)
  | .initializeFile => if w.exoid < 0 then (w, [], true) else (w, [.put w.exoid], false)
  | .setBlockName => (w, [.put w.exoid], false)
  | .closeFile => if !w.hasOpenFile then (w, [], true) else (⟨-1, ""⟩, [.close w.exoid], false)

/-- A history of calls, exceptions being caught by the caller. -/
def exoRun : ExoWriter → List ExoOp → ExoWriter × List LibCall
  | w, [] => (w, [])
  | w, op :: ops => ((exoRun (exoStep w op).1 ops).1, (exoStep w op).2.1 ++ (exoRun (exoStep w op).1 ops).2)

/-- The destructor (MeshingExodusIO.cpp:66-72). -/
def exoDestroy (w : ExoWriter) : List LibCall := if w.hasOpenFile then (exoStep w .closeFile).2.1 else []

/-! ## Coordinates -/

/-- `ex_put_coord` reads one double for every node from the array it is given, here with its size in bytes. -/
def libReadCoords (numNodes bytes : Nat) : Option Unit := if 8 * numNodes ≤ bytes then some () else none

/-- `setCoordinatesOnAxis` (MeshingExodusIO.cpp:155-187) for a list of `n` numbers: an array of `n` doubles. -/
def coordsOnAxis (numNodes n : Nat) : Option Unit := libReadCoords numNodes (8 * n)

/-- One axis of `setCoordinates` (MeshingExodusIO.cpp:206-224) for a list of `n` numbers: an array of `n` ints of 4 bytes. -/
def coordsThree (numNodes n : Nat) : Option Unit := libReadCoords numNodes (4 * n)

/-! ## `save_exodus_file` -/

/-- `int(v)` for a `size_t` (two's complement). -/
def castInt (v : Nat) : Int := Int.bmod v 4294967296

/-- `int(v) + 1`; `none` is signed overflow. -/
def castInt1 (v : Nat) : Option Int := if castInt v = 2147483647 then none else some (castInt v + 1)

/-- The allocation loop (MeshingVoronoiMesher.cpp:3173-3174): the number of entries of all lists. -/
def exoTotal : List (List Nat) → Nat
  | [] => 0
  | f :: fs => f.length + exoTotal fs

/-- Writing one entry at the current position of an array of `cap` entries (MeshingVoronoiMesher.cpp:3184 and 3207). -/
def exoWrite (cap : Nat) (v : Nat) (arr : List Int) : Option (List Int) := if arr.length < cap then (castInt1 v).map fun e => arr ++ [e] else none

/-- Writing the entries of one list (MeshingVoronoiMesher.cpp:3182-3185 and 3205-3208). -/
def exoEntries (cap : Nat) : List Nat → List Int → Option (List Int)
  | [], arr => some arr
  | v :: vs, arr =>
    match exoWrite cap v arr with
    | some arr => exoEntries cap vs arr
    | none => none

/-- The second loop (MeshingVoronoiMesher.cpp:3179-3186): the number of corners and the corners of every face, `capN` and `cap` the sizes of the arrays. -/
def exoFill (capN cap : Nat) : List (List Nat) → List Int → List Int → Option (List Int × List Int)
  | [], ns, arr => some (ns, arr)
  | f :: fs, ns, arr =>
    if ns.length < capN then
      match exoEntries cap f arr with
      | some arr => exoFill capN cap fs (ns ++ [castInt f.length]) arr
      | none => none
    else none

/-- The face arrays (MeshingVoronoiMesher.cpp:3173-3186). -/
def exoFaces (faces : List (List Nat)) : Option (List Int × List Int) := exoFill faces.length (exoTotal faces) faces [] []

/-- The counting loop over the cells (MeshingVoronoiMesher.cpp:3188-3195); a cell is its region and its faces. -/
def exoCellCount : List (Nat × List Nat) → Nat × Nat
  | [] => (0, 0)
  | c :: cs => if c.1 = 0 then exoCellCount cs else ((exoCellCount cs).1 + 1, (exoCellCount cs).2 + c.2.length)

/-- The second loop over the cells (MeshingVoronoiMesher.cpp:3199-3211). -/
def exoCellFill (capN cap : Nat) : List (Nat × List Nat) → List Int → List Int → Option (List Int × List Int)
  | [], ns, arr => some (ns, arr)
  | c :: cs, ns, arr =>
    if c.1 = 0 then exoCellFill capN cap cs ns arr
    else
      match exoEntries cap c.2 arr with
      | some arr => if ns.length < capN then exoCellFill capN cap cs (ns ++ [castInt c.2.length]) arr else none
      | none => none

/-- The cell arrays (MeshingVoronoiMesher.cpp:3188-3211). -/
def exoCells (cells : List (Nat × List Nat)) : Option (List Int × List Int) := exoCellFill (exoCellCount cells).1 (exoCellCount cells).2 cells [] []

end VoroCrust
