import Verif.Model.KdTree

/-!
# Model of text input: tokens, configuration file, command line, seed, sphere and surface files

A text is a list of characters.  The conversion of a token to a number (`string_to_double`,
`string_to_size_t`, MeshingMemoryHandler.cpp:143-153) is an arbitrary function, so nothing depends on
number formats.
-/

namespace VoroCrust

abbrev Tok := List Char

/-! ## `get_tokens` -/

/-- `line.find_first_of(separator, start)`, with `npos` replaced by `line.size()`
(MeshingVoroCrust.cpp:834-835).  `line.size() + 1 - start` steps of fuel always suffice. -/
def findFrom (line : List Char) (sep : Char) : Nat → Nat → Nat
  | 0, _ => line.length
  | fuel + 1, start =>
    match line[start]? with
    | none => line.length
    | some c => if c = sep then start else findFrom line sep fuel (start + 1)

/-- `line.substr(start, len)`; `none` is the `out_of_range` exception thrown when `start > size()`. -/
def substr (line : List Char) (start len : Nat) : Option Tok :=
  if start ≤ line.length then some ((line.drop start).take len) else none

/-- The loop of `get_tokens` (MeshingVoroCrust.cpp:827-848, MeshingVoronoiMesher.cpp:3132-3153,
MeshingSmartTree.cpp:213-232). -/
def tokensLoop (line : List Char) (sep : Char) : Nat → Nat → List Tok → Option (List Tok)
  | 0, _, _ => none
  | fuel + 1, start, acc =>
    let e := findFrom line sep (line.length + 1) start
    match substr line start (e - start) with
    | none => none
    | some t => if e = line.length then some (acc ++ [t]) else tokensLoop line sep fuel (e + 1) (acc ++ [t])

/-- `get_tokens(line, separator, tokens)`. -/
def getTokens (line : List Char) (sep : Char) : Option (List Tok) := tokensLoop line sep (line.length + 1) 0 []

/-! ## White-space separated words and lines -/

/-- `isspace` in the "C" locale. -/
def isWs (c : Char) : Bool := c == ' ' || c == '\t' || c == '\n' || c == '\r' || c == Char.ofNat 11 || c == Char.ofNat 12

/-- `copy(istream_iterator<string>(iss), ...)` (MeshingVoroCrust.cpp:85-86, MeshingPolyMesh.cpp:204-205):
the maximal runs of non-space characters. -/
def wordsGo : List Char → Tok → List Tok
  | [], cur => if cur = [] then [] else [cur]
  | c :: cs, cur =>
    if isWs c then (if cur = [] then wordsGo cs [] else cur :: wordsGo cs []) else wordsGo cs (cur ++ [c])

def words (line : List Char) : List Tok := wordsGo line []

/-- The successive results of `getline`: pieces ended by a newline; a last piece without newline counts
only if it is not empty. -/
def linesGo : List Char → Tok → List (List Char)
  | [], cur => if cur = [] then [] else [cur]
  | c :: cs, cur => if c = '\n' then cur :: linesGo cs [] else linesGo cs (cur ++ [c])

def fileLines (file : List Char) : List (List Char) := linesGo file []

/-! ## Configuration file -/

/-- The options set by `execute` (MeshingVoroCrust.cpp:61-77). -/
structure Config (V : Type) where
  filenames : List Tok
  sizing : Tok
  rMin : V
  rMax : V
  lip : V
  angle : V
  threads : Int
  vcg : Bool
  exodus : Bool
  genMonitoring : Bool
  imposeMonitoring : Bool
  fromSeeds : Bool
  deriving DecidableEq

/-- The numeric constants and conversions used by the reader: `0.1`, `20.0`, `0.0`, `DBL_MAX`,
`string_to_double`, and the cast `int(double)`. -/
structure NumOps (V : Type) where
  tenth : V
  twenty : V
  zero : V
  dblMax : V
  parse : Tok → V
  toInt : V → Int

/-- Initial values (MeshingVoroCrust.cpp:61-77). -/
def Config.default {V : Type} (N : NumOps V) : Config V :=
  { filenames := [], sizing := [], rMin := N.zero, rMax := N.dblMax, lip := N.tenth, angle := N.twenty, threads := 1,
    vcg := false, exodus := false, genMonitoring := false, imposeMonitoring := false, fromSeeds := false }

/-- `if (tokens[0] == key) <use tokens[2]>`; reading a missing `tokens[2]` is undefined behaviour. -/
def onValue {V : Type} (t : List Tok) (key : String) (f : Config V → Tok → Config V) (c : Config V) : Option (Config V) :=
  if t[0]? = some key.toList then (t[2]?).map (f c) else some c

/-- `if (tokens[0] == key) flag = true`. -/
def onFlag {V : Type} (t : List Tok) (key : String) (f : Config V → Config V) (c : Config V) : Option (Config V) :=
  if t[0]? = some key.toList then some (f c) else some c

/-- The body of the line loop (MeshingVoroCrust.cpp:88-102). -/
def configLine {V : Type} (N : NumOps V) (c : Config V) (t : List Tok) : Option (Config V) :=
  if t.length = 0 then some c
  else
    (onValue t "INPUT_MESH_FILE" (fun c v => { c with filenames := c.filenames ++ [v] }) c).bind fun c =>
    (onValue t "SIZING_FILE" (fun c v => { c with sizing := v }) c).bind fun c =>
    (onValue t "R_MIN" (fun c v => { c with rMin := N.parse v }) c).bind fun c =>
    (onValue t "R_MAX" (fun c v => { c with rMax := N.parse v }) c).bind fun c =>
    (onValue t "LIP_CONST" (fun c v => { c with lip := N.parse v }) c).bind fun c =>
    (onValue t "VC_ANGLE" (fun c v => { c with angle := N.parse v }) c).bind fun c =>
    (onValue t "NUM_THREADS" (fun c v => { c with threads := N.toInt (N.parse v) }) c).bind fun c =>
    (onFlag t "GENERATE_VCG_FILE" (fun c => { c with vcg := true }) c).bind fun c =>
    (onFlag t "GENERATE_EXODUS_FILE" (fun c => { c with exodus := true }) c).bind fun c =>
    (onFlag t "GENERATE_MONITORING_POINTS" (fun c => { c with genMonitoring := true }) c).bind fun c =>
    (onFlag t "IMPOSE_MONITORING_POINTS" (fun c => { c with imposeMonitoring := true }) c).bind fun c =>
    (onFlag t "GENERATE_MESH_FROM_SEEDS" (fun c => { c with fromSeeds := true }) c).bind fun c =>
    onValue t "SEEDS_FILE" (fun c v => { c with filenames := c.filenames ++ [v] }) c

def configLines {V : Type} (N : NumOps V) : Config V → List (List Tok) → Option (Config V)
  | c, [] => some c
  | c, t :: ts => (configLine N c t).bind fun c => configLines N c ts

/-- Reading the whole configuration file (MeshingVoroCrust.cpp:79-104). -/
def readConfig {V : Type} (N : NumOps V) (file : List Char) : Option (Config V) :=
  configLines N (Config.default N) ((fileLines file).map words)

/-- What `execute` does once the configuration is read (MeshingVoroCrust.cpp:105-218). -/
inductive Dispatch
  | cannotOpen
  | undefined
  | meshFromSeeds (file : Tok)
  | meshSurface (file : Tok)
  | meshMerged (files : List Tok)
  deriving DecidableEq

/-- `execute` up to the choice of work; `file = none` means the file could not be opened (106-112);
`filenames[0]` with no file name is undefined behaviour (117, 217). -/
def dispatch {V : Type} (N : NumOps V) (file : Option (List Char)) : Dispatch :=
  match file with
  | none => .cannotOpen
  | some f =>
    match readConfig N f with
    | none => .undefined
    | some c =>
      if c.fromSeeds then
        match c.filenames with
        | [] => .undefined
        | f :: _ => .meshFromSeeds f
      else if c.filenames.length > 1 then .meshMerged c.filenames
      else
        match c.filenames with
        | [] => .undefined
        | f :: _ => .meshSurface f

/-! ## Command line -/

inductive CliOutcome
  | usageExit0
  | badMethodExit1
  | missingParameter
  | run (method : Nat) (filename : String)
  deriving DecidableEq

/-- `option_exists` (MeshingOptionParser.h:112-115). -/
def optionExists (argv : List String) (o : String) : Bool := argv.contains o

/-- `get_option_value(option, true)` (MeshingOptionParser.h:96-109): the argument after the first
occurrence. -/
def optionValue (argv : List String) (o : String) : Option String := (argv.dropWhile (fun a => a != o))[1]?

/-- `parse` with `OptionParserVCMesh::parse_options` (MeshingOptionParser.h:77-93, vc_mesh.cxx:56-74).
`argv` is without the program name. -/
def parseCli (argv : List String) : CliOutcome :=
  if argv.length = 0 || optionExists argv "-h" then .usageExit0
  else if optionExists argv "-vc" then
    match optionValue argv "-vc" with
    | none => .missingParameter
    | some f => .run 1 f
  else if optionExists argv "-subdivision_smooth" then
    match optionValue argv "-subdivision_smooth" with
    | none => .missingParameter
    | some f => .run 2 f
  else .badMethodExit1

/-! ## Seed and sphere files -/

/-- One seed record. -/
structure Seed (V : Type) where
  x : V
  y : V
  z : V
  sizing : V
  region : Nat
  deriving DecidableEq

/-- First pass of `read_seeds_csv` (MeshingVoroCrust.cpp:781-797): skip the header, count the lines
(`tokens.size() == 0` is tested, but `get_tokens` never returns an empty list). -/
def countLines : List (List Char) → Nat → Option Nat
  | [], n => some n
  | l :: ls, n =>
    match getTokens l ',' with
    | none => none
    | some t => if t.length = 0 then countLines ls n else countLines ls (n + 1)

/-- The first pass over the whole file. -/
def countSeeds (ls : List (List Char)) : Option Nat := countLines ls.tail 0

/-- Body of the second pass: the five fields of a line, `none` when a token is missing. -/
def seedOfTokens {V : Type} (parse : Tok → V) (parseNat : Tok → Nat) (t : List Tok) : Option (Seed V) :=
  match t[0]?, t[1]?, t[2]?, t[3]?, t[4]? with
  | some a, some b, some c, some d, some e => some { x := parse a, y := parse b, z := parse c, sizing := parse d, region := parseNat e }
  | _, _, _, _, _ => none

/-- Second pass (MeshingVoroCrust.cpp:805-822): the arrays have room for `cap` seeds. -/
def fillSeeds {V : Type} (parse : Tok → V) (parseNat : Tok → Nat) (cap : Nat) : List (List Char) → List (Seed V) → Option (List (Seed V))
  | [], acc => some acc
  | l :: ls, acc =>
    match getTokens l ',' with
    | none => none
    | some t =>
      if t.length = 0 then fillSeeds parse parseNat cap ls acc
      else
        match seedOfTokens parse parseNat t with
        | none => none
        | some s => if acc.length < cap then fillSeeds parse parseNat cap ls (acc ++ [s]) else none

/-- `read_seeds_csv` (MeshingVoroCrust.cpp:771-825). -/
def readSeeds {V : Type} (parse : Tok → V) (parseNat : Tok → Nat) (file : List Char) : Option (List (Seed V)) :=
  match countSeeds (fileLines file) with
  | none => none
  | some n => fillSeeds parse parseNat n (fileLines file).tail []

/-- The line loop of `load_spheres_csv` (MeshingVoronoiMesher.cpp:2605-2630) after the header line: short
lines are skipped, the array of `cap` records is doubled when full.  State: records so far, `cap`. -/
def loadSpheresLoop {V : Type} (parse : Tok → V) (dim : Nat) : List (List Char) → List (List V) × Nat → Option (List (List V) × Nat)
  | [], s => some s
  | l :: ls, (acc, cap) =>
    match getTokens l ',' with
    | none => none
    | some t =>
      if t.length ≤ dim then loadSpheresLoop parse dim ls (acc, cap)
      else if acc.length < cap then
        let acc := acc ++ [(t.take (dim + 1)).map parse]
        loadSpheresLoop parse dim ls (acc, if acc.length = cap then 2 * cap else cap)
      else none

/-- `load_spheres_csv` (MeshingVoronoiMesher.cpp:2591-2635). -/
def loadSpheres {V : Type} (parse : Tok → V) (dim : Nat) (file : List Char) : Option (List (List V)) :=
  (loadSpheresLoop parse dim (fileLines file).tail ([], 100)).map Prod.fst

/-! ## Surface files -/

/-- A surface as read: points and faces (three zero-based indices each). -/
structure Surface (α : Type) where
  points : List α
  faces : List (Nat × Nat × Nat)

/-- A face with its indices shifted (`tmp_faces[iface][ic] += num_points`, MeshingVoroCrust.cpp:183-186). -/
def shiftFace (k : Nat) (f : Nat × Nat × Nat) : Nat × Nat × Nat := (f.1 + k, f.2.1 + k, f.2.2 + k)

/-- One round of the merge loop (MeshingVoroCrust.cpp:178-206): the four copy loops append. -/
def mergeStep {α : Type} (acc new : Surface α) : Surface α :=
  { points := acc.points ++ new.points, faces := acc.faces ++ new.faces.map (shiftFace acc.points.length) }

/-- The merge loop (MeshingVoroCrust.cpp:175-207), before welding. -/
def mergeSurfaces {α : Type} (files : List (Surface α)) : Surface α := files.foldl mergeStep { points := [], faces := [] }

/-- Result of a line of an OBJ file. -/
inductive ObjItem (V : Type)
  | none
  | vertex (x y z : V)
  | face (a b c : Nat)
  deriving DecidableEq

/-- `tokens[i].substr(0, tokens[i].find("/"))` (MeshingPolyMesh.cpp:239-240). -/
def cutSlash (t : Tok) : Tok := t.takeWhile (fun c => c ≠ '/')

/-- One line of `read_input_obj_file` (MeshingPolyMesh.cpp:226-276).  `index` is
`size_t(string_to_double(token) - 1)`, undefined (`none`) when the value is not at least 1.  Missing
tokens are undefined behaviour.  Only the first three corners of a face are read. -/
def objLine {V : Type} (parse : Tok → V) (index : Tok → Option Nat) (t : List Tok) : Option (ObjItem V) :=
  if t[0]? = some ['v'] then
    match t[1]?, t[2]?, t[3]? with
    | some a, some b, some c => some (.vertex (parse a) (parse b) (parse c))
    | _, _, _ => none
  else if t[0]? = some ['f'] then
    match t[1]?, t[2]?, t[3]? with
    | some a, some b, some c =>
      match index (cutSlash a), index (cutSlash b), index (cutSlash c) with
      | some i, some j, some k => some (.face i j k)
      | _, _, _ => none
    | _, _, _ => none
  else some .none

/-- First pass of `read_input_obj_file` (MeshingPolyMesh.cpp:196-212): numbers of points and faces. -/
def objCount : List (List Tok) → Nat × Nat
  | [] => (0, 0)
  | t :: ts =>
    let r := objCount ts
    (if t[0]? = some ['v'] then r.1 + 1 else r.1, if t[0]? = some ['f'] then r.2 + 1 else r.2)

/-- Second pass (MeshingPolyMesh.cpp:219-278): the arrays have room for `np` points and `nf` faces. -/
def objFill {V : Type} (parse : Tok → V) (index : Tok → Option Nat) (np nf : Nat) :
    List (List Tok) → Surface (V × V × V) → Option (Surface (V × V × V))
  | [], s => some s
  | t :: ts, s =>
    match objLine parse index t with
    | none => none
    | some .none => objFill parse index np nf ts s
    | some (.vertex x y z) => if s.points.length < np then objFill parse index np nf ts { s with points := s.points ++ [(x, y, z)] } else none
    | some (.face a b c) => if s.faces.length < nf then objFill parse index np nf ts { s with faces := s.faces ++ [(a, b, c)] } else none

/-- `read_input_obj_file` (MeshingPolyMesh.cpp:190-334) before welding. -/
def readObj {V : Type} (parse : Tok → V) (index : Tok → Option Nat) (file : List Char) : Option (Surface (V × V × V)) :=
  let ls := (fileLines file).map words
  objFill parse index (objCount ls).1 (objCount ls).2 ls { points := [], faces := [] }

end VoroCrust
