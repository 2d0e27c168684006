import Verif.Model.Vcg
import Verif.Model.Regions
import Verif.Model.Exodus
import Verif.Model.Text

/-!
# Model of `MeshingVoroCrust::generate_explicit_mesh` and `generate_mesh_from_seeds_file` (MeshingVoroCrust.cpp:618-770)

The mesh, the merging of regions, the lists of faces of the cells and the two files, one after the other.  `Option (Option α)`: `none` is undefined behaviour, `some none` means that the fuel of a loop of
`generate_3d_voronoi_mesh` is used up.  Of the Exodus file the numbers handed to the library are modelled; rounding a coordinate to `float` is the parameter `flt`.  Console output and timing are left out.
-/

namespace VoroCrust

open Classical

/-- The two seeds of every face, as the driver reads them (MeshingVoroCrust.cpp:701-707). -/
def VMesh.pairs (M : VMesh) : List (Nat × Nat) := (List.range M.nf).map fun k => match M.faces k with | some g => (g.seed, g.nbr) | none => (0, 0)

/-- The region of a seed. -/
def regionAt (xs : List SeedRec) (i : Nat) : Nat := match xs[i]? with | some s => s.region | none => 0

/-- The list of faces of a cell. -/
def listOf (cf : Nat → Option CellList) (k : Nat → Nat) (i : Nat) : List Nat := match cf i with | some l => (List.range (k i)).map l.cells | none => []

/-- The faces of the mesh, read one by one; an unwritten one is undefined (MeshingVoroCrust.cpp:658-662, 701-705, 720-724). -/
def VMesh.faceList (M : VMesh) : Option (List MeshFace) := (List.range M.nf).mapM M.face

/-! ## The Exodus file -/

/-- What `save_exodus_file` hands to the library: the numbers of `ex_init_params` (MeshingVoronoiMesher.cpp:3252-3258), the coordinates (3281), the sizes of the two blocks (3300-3305, 3339-3345) and their arrays. -/
structure ExoFile where
  numNodes : Int
  numFaces : Int
  numElems : Int
  coords : List (ℝ × ℝ × ℝ)
  faceTotal : Int
  faceCounts : List Int
  faceEntries : List Int
  elemTotal : Int
  elemCounts : List Int
  elemEntries : List Int

/-- The coordinates (MeshingVoronoiMesher.cpp:3161-3170): arrays of `int(num_vertices)` entries, filled for all vertices. -/
noncomputable def exoCoords (flt : ℝ → ℝ) (M : VMesh) : Option (List (ℝ × ℝ × ℝ)) :=
  if (M.nv : Int) ≤ castInt M.nv then (List.range M.nv).mapM fun v => (M.vertex v).map fun z => (flt (z 0), flt (z 1), flt (z 2)) else none

/-- The regions and the lists of faces of all cells. -/
def exoCellList (ys : List SeedRec) (cf : Nat → List Nat) : List (Nat × List Nat) := (List.range ys.length).map fun i => (regionAt ys i, cf i)

/-- The numbers and arrays handed over, each number cast to `int` (MeshingVoronoiMesher.cpp:3221, 3252-3258, 3300-3305, 3339-3345). -/
def exoFileOf (nv nf : Nat) (xyz : Option (List (ℝ × ℝ × ℝ))) (f c : Option (List Int × List Int)) : Option ExoFile :=
  match xyz, f, c with
  | some xyz, some f, some c => some ⟨castInt nv, castInt nf, castInt c.1.length, xyz, castInt f.2.length, f.1, f.2, castInt c.2.length, c.1, c.2⟩
  | _, _, _ => none

/-- `save_exodus_file` (MeshingVoronoiMesher.cpp:3155-3431) up to the calls of the library. -/
noncomputable def saveExodus (flt : ℝ → ℝ) (ys : List SeedRec) (M : VMesh) (cf : Nat → List Nat) : Option ExoFile :=
  exoFileOf M.nv M.nf (exoCoords flt M) (M.faceList.bind fun fs => exoFaces (fs.map MeshFace.verts)) (exoCells (exoCellList ys cf))

/-! ## The driver -/

/-- `seeds_region_id[iseed] = region_new_index[...]` (MeshingVoroCrust.cpp:691-694). -/
def setRegions (reg : Nat → Nat) (xs : List SeedRec) : List SeedRec := xs.mapIdx fun i s => { s with region := reg i }

/-- The mesh, the seeds with their final regions, `num_active_regions`, `num_meshed_cells`, and the files asked for. -/
structure ExplicitRun where
  mesh : VMesh
  seeds : List SeedRec
  active : Nat
  cells : Nat
  vcg : Option VcgFile
  exo : Option ExoFile

/-- `generate_explicit_mesh` (MeshingVoroCrust.cpp:618-757); `ns` is `num_surface_seeds`, `v` and `e` say which files are wanted. -/
noncomputable def explicitMesh (flt : ℝ → ℝ) (v e : Bool) (ns : Nat) (xs : List SeedRec) (fuel' fuel : Nat) : Option (Option ExplicitRun) :=
  andThen (voroMesh xs fuel' fuel) fun M =>
    match M.faceList with
    | none => none
    | some fs =>
      match mergeRegions xs.length ns (regionAt xs) (fs.map fun g => (g.seed, g.nbr)) with
      | none => none
      | some (reg, active) =>
        let ys := setRegions reg xs
        match cellFaces ys.length (regionAt ys) (fs.map fun g => (g.seed, g.nbr)) with
        | none => none
        | some (cf, k, m) =>
          match (if v then (saveVcg ys M (listOf cf k)).map some else some none), (if e then (saveExodus flt ys M (listOf cf k)).map some else some none) with
          | some a, some b => some (some ⟨M, ys, active, m, a, b⟩)
          | _, _ => none

/-- A seed of a file. -/
def recOfSeed (s : Seed ℝ) : SeedRec := ⟨fun d => if d = 0 then s.x else if d = 1 then s.y else if d = 2 then s.z else 0, s.sizing, s.region⟩

/-- `generate_mesh_from_seeds_file` (MeshingVoroCrust.cpp:761-768): all seeds count as surface seeds. -/
noncomputable def meshFromSeedsFile (parse : Tok → ℝ) (parseNat : Tok → Nat) (flt : ℝ → ℝ) (v e : Bool) (file : List Char) (fuel' fuel : Nat) : Option (Option ExplicitRun) :=
  match readSeeds parse parseNat file with
  | none => none
  | some l => explicitMesh flt v e l.length (l.map recOfSeed) fuel' fuel

end VoroCrust
