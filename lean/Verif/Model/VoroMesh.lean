import Verif.Model.Cell
import Mathlib.Data.Finset.Sort

/-!
# Model of `MeshingVoronoiMesher::generate_3d_voronoi_mesh` (MeshingVoronoiMesher.cpp:1620-1949)

Exact real arithmetic.  `none` is undefined behaviour, `some none` a loop that has used up its fuel.

Simplifications: `seeds`, `seed_sizing` and `seed_region_id` are one list of records; the per-seed arrays `cell_corners`, `cell_corner_neighbors`,
`cell_corner_seeds` and the first entry of `cell_corner_indices` are one list of corners, `none` for a seed without a cell; the loop over the cells is
sequential (its iterations write the entries of their own seed only).
-/

namespace VoroCrust

open Classical

/-- Go on with the value. -/
def andThen {α β : Type} (x : Option (Option α)) (f : α → Option (Option β)) : Option (Option β) :=
  match x with
  | none => none
  | some none => some none
  | some (some a) => f a

/-! ## The cells -/

/-- A corner after the translation to old indices (MeshingVoronoiMesher.cpp:1661-1665). -/
structure MeshCorner where
  x : Nat → ℝ
  nbr : Nat → Nat
  seeds : Nat → Nat
  owner : Nat

/-- The corners of the cells by old index of the seed. -/
abbrev Cells := Nat → Option (List MeshCorner)

/-- `seed_old_index[i]`. -/
def oldAt (T : MTree) (i : Nat) : Option Nat := if i < T.P.num then T.old i else none

/-- MeshingVoronoiMesher.cpp:1663-1664: a corner without owner has `SIZE_MAX` there, which is outside the array. -/
def oldCorner (T : MTree) (q : CellCorner) : Option MeshCorner :=
  match triple? (fun i => oldAt T (q.seeds i)), q.owner.bind (oldAt T) with
  | some s, some o => some ⟨q.x, q.nbr, s, o⟩
  | _, _ => none

/-- The loop over the corners (MeshingVoronoiMesher.cpp:1661-1665). -/
def oldCorners (T : MTree) : List CellCorner → Option (List MeshCorner)
  | [] => some []
  | q :: qs =>
    match oldCorner T q, oldCorners T qs with
    | some a, some l => some (a :: l)
    | _, _ => none

/-- The seed of new index `i`, and its old index. -/
def meshSeed (T : MTree) (xs : List SeedRec) (i : Nat) : Option (Nat × SeedRec) :=
  match oldAt T i with
  | none => none
  | some o =>
    match xs[o]? with
    | none => none
    | some s => some (o, s)

/-- `ghost_seed` (MeshingVoronoiMesher.cpp:1633-1639). -/
def ghostSeed (T : MTree) (xs : List SeedRec) (i : Nat) : Bool :=
  match meshSeed T xs i with
  | none => true
  | some (_, s) => decide (s.region = 0)

/-- The loop over the cells, `k` of them from new index `i` (MeshingVoronoiMesher.cpp:1651-1666). -/
noncomputable def meshCells (T : MTree) (xs : List SeedRec) (fuel' fuel : Nat) : Nat → Nat → Cells → Option (Option Cells)
  | 0, _, C => some (some C)
  | k + 1, i, C =>
    match meshSeed T xs i with
    | none => none
    | some (o, s) =>
      if s.region = 0 then meshCells T xs fuel' fuel k (i + 1) C
      else
        andThen (getCell T (ghostSeed T xs) i fuel' fuel (2 * s.size)) fun l =>
          match oldCorners T l with
          | none => none
          | some m => meshCells T xs fuel' fuel k (i + 1) (upd C o (some m))

/-! ## Welding the corners -/

/-- The first two entries of `cell_corner_indices[i][3 * c ..]`. -/
abbrev CornerPtr := Nat → Nat → Option (Nat × Nat)

/-- The nearest corner, the first of them (MeshingVoronoiMesher.cpp:1684-1695). -/
noncomputable def nearestCorner (v : Nat → ℝ) : List MeshCorner → Nat → Option (Nat × ℝ) → Option (Nat × ℝ)
  | [], _, b => b
  | q :: qs, j, b =>
    if ∀ a, b = some a → Real.sqrt (distSq3 q.x v) < a.2 then nearestCorner v qs (j + 1) (some (j, Real.sqrt (distSq3 q.x v))) else nearestCorner v qs (j + 1) b

/-- The tag of one corner (MeshingVoronoiMesher.cpp:1677-1702).  It reads only its own entry and the coordinates, so all of them are one table. -/
noncomputable def tagCorner (C : Cells) (i c : Nat) (q : MeshCorner) : Option (Nat × Nat) :=
  match C q.owner with
  | none => none
  | some l =>
    match nearestCorner q.x l 0 none with
    | none => some (i, c)
    | some (j, h) => if h > 1e-6 then some (i, c) else some (q.owner, j)

/-- The tags (MeshingVoronoiMesher.cpp:1672-1706). -/
noncomputable def tagCorners (C : Cells) : CornerPtr := fun i c =>
  match C i with
  | none => none
  | some l =>
    match l[c]? with
    | none => none
    | some q => tagCorner C i c q

/-- The corners of one seed; a ghost seed has no cell and is skipped. -/
def slotsOf (C : Cells) (i : Nat) : List (Nat × Nat) :=
  match C i with
  | none => []
  | some l => (List.range l.length).map fun c => (i, c)

/-- The order of the loops over the seeds and their corners. -/
def cornerSlots (C : Cells) : Nat → List (Nat × Nat)
  | 0 => []
  | n + 1 => cornerSlots C n ++ slotsOf C n

/-- The inner `while` (MeshingVoronoiMesher.cpp:1716-1722). -/
def chase (p : CornerPtr) : Nat → Nat × Nat → Option (Option (Nat × Nat))
  | 0, _ => some none
  | f + 1, a =>
    match p a.1 a.2 with
    | none => none
    | some b => if b = a then some (some a) else chase p f b

/-- Write one entry. -/
def setPtr {α : Type} (p : Nat → Nat → Option α) (i c : Nat) (t : α) : Nat → Nat → Option α := fun i' c' => if i' = i ∧ c' = c then some t else p i' c'

/-- The loop that makes every corner point to the chosen one (MeshingVoronoiMesher.cpp:1709-1726). -/
def resolveLoop (fuel : Nat) : List (Nat × Nat) → CornerPtr → Option (Option CornerPtr)
  | [], p => some (some p)
  | (i, c) :: s, p =>
    match p i c with
    | none => none
    | some a => andThen (chase p fuel a) fun t => resolveLoop fuel s (setPtr p i c t)

/-- The numbers of the vertices, the third entry of `cell_corner_indices` (MeshingVoronoiMesher.cpp:1729-1742). -/
def numberLoop (p : CornerPtr) : List (Nat × Nat) → Nat → (Nat → Nat → Option Nat) → (Nat → Nat → Option Nat) × Nat
  | [], n, m => (m, n)
  | (i, c) :: s, n, m => if p i c = some (i, c) then numberLoop p s (n + 1) (setPtr m i c n) else numberLoop p s n m

/-- The corner `c` of the cell `i`. -/
def cornerAt (C : Cells) (i c : Nat) : Option MeshCorner := (C i).bind fun l => l[c]?

/-- The coordinates of the vertices, an array of `nv` points (MeshingVoronoiMesher.cpp:1744-1762). -/
def vertexLoop (C : Cells) (p : CornerPtr) (nv : Nat) : List (Nat × Nat) → Nat → (Nat → Option (Nat → ℝ)) → Option (Nat → Option (Nat → ℝ))
  | [], _, a => some a
  | (i, c) :: s, n, a =>
    if p i c = some (i, c) then
      match cornerAt C i c with
      | none => none
      | some q => if n < nv then vertexLoop C p nv s (n + 1) (fun k => if k = n then some q.x else a k) else none
    else vertexLoop C p nv s n a

/-- The result of the welding. -/
structure Welded where
  ptr : CornerPtr
  num : Nat → Nat → Option Nat
  nv : Nat
  vertices : Nat → Option (Nat → ℝ)

/-- MeshingVoronoiMesher.cpp:1672-1762. -/
noncomputable def weldCorners (C : Cells) (n fuel : Nat) : Option (Option Welded) :=
  andThen (resolveLoop fuel (cornerSlots C n) (tagCorners C)) fun p =>
    match vertexLoop C p (numberLoop p (cornerSlots C n) 0 fun _ _ => none).2 (cornerSlots C n) 0 (fun _ => none) with
    | none => none
    | some a => some (some ⟨p, (numberLoop p (cornerSlots C n) 0 fun _ _ => none).1, (numberLoop p (cornerSlots C n) 0 fun _ _ => none).2, a⟩)

/-! ## The faces -/

/-- One face: its vertices and the last two entries. -/
structure MeshFace where
  verts : List Nat
  seed : Nat
  nbr : Nat

/-- The number of the vertex of corner `c` (MeshingVoronoiMesher.cpp:1813-1815). -/
def Welded.vertexOf (W : Welded) (i c : Nat) : Option Nat :=
  match W.ptr i c with
  | none => none
  | some (s, k) => W.num s k

/-- `neighbors`, in ascending order (MeshingVoronoiMesher.cpp:1771-1775). -/
def cellNeighbors (l : List MeshCorner) : List Nat := (l.flatMap fun q => [q.seeds 0, q.seeds 1, q.seeds 2]).toFinset.sort (· ≤ ·)

/-- Is the neighbour one of the three seeds? -/
def MeshCorner.touches (q : MeshCorner) (nb : Nat) : Bool := q.seeds 0 == nb || q.seeds 1 == nb || q.seeds 2 == nb

/-- `first_corner` (MeshingVoronoiMesher.cpp:1784-1796). -/
def firstCorner (l : List MeshCorner) (nb : Nat) : Nat := l.findIdx fun q => q.touches nb

/-- The next corner of the face; without the neighbour among its seeds the corner stays (MeshingVoronoiMesher.cpp:1831-1838). -/
def nextCorner (l : List MeshCorner) (nb cur : Nat) : Option Nat :=
  match l[cur]? with
  | none => none
  | some q => some (if q.seeds 0 = nb then q.nbr 0 else if q.seeds 1 = nb then q.nbr 1 else if q.seeds 2 = nb then q.nbr 2 else cur)

/-- The walk around a face (MeshingVoronoiMesher.cpp:1798-1840 and again 1880-1920). -/
def faceWalk (l : List MeshCorner) (vtx : Nat → Option Nat) (nb first : Nat) : Nat → Nat → Nat → List Nat → Option (Option (List Nat))
  | 0, _, _, _ => some none
  | f + 1, iter, cur, fc =>
    if iter > 100 * fc.length then some (some fc)
    else
      match vtx cur with
      | none => none
      | some v =>
        if fc.length > 2 ∧ fc.head? = some v then some (some fc)
        else
          match nextCorner l nb cur with
          | none => none
          | some cur' =>
            if cur' = first then some (some (if v ∈ fc then fc else fc ++ [v])) else faceWalk l vtx nb first f (iter + 1) cur' (if v ∈ fc then fc else fc ++ [v])

/-- A face with fewer than three vertices is dropped (MeshingVoronoiMesher.cpp:1841, 1922). -/
def keepFace (fc : List Nat) (i nb : Nat) (fs : List MeshFace) : List MeshFace := if 3 ≤ fc.length then ⟨fc, i, nb⟩ :: fs else fs

/-- The faces of the cell of seed `i` (MeshingVoronoiMesher.cpp:1778-1842 and again 1859-1932). -/
def seedFaces (xs : List SeedRec) (W : Welded) (fuel i : Nat) (l : List MeshCorner) : List Nat → Option (Option (List MeshFace))
  | [] => some (some [])
  | nb :: nbs =>
    match xs[nb]? with
    | none => none
    | some s =>
      if nb < i ∧ s.region ≠ 0 then seedFaces xs W fuel i l nbs
      else
        andThen (faceWalk l (W.vertexOf i) nb (firstCorner l nb) fuel 0 (firstCorner l nb) []) fun fc =>
          andThen (seedFaces xs W fuel i l nbs) fun fs => some (some (keepFace fc i nb fs))

/-- The faces of one seed, none for a ghost. -/
def facesAt (xs : List SeedRec) (C : Cells) (W : Welded) (fuel i : Nat) : Option (Option (List MeshFace)) :=
  match C i with
  | none => some (some [])
  | some l => seedFaces xs W fuel i l (cellNeighbors l)

/-- The pass that counts the faces (MeshingVoronoiMesher.cpp:1765-1844). -/
def countMeshFaces (xs : List SeedRec) (C : Cells) (W : Welded) (fuel : Nat) : Nat → Option (Option Nat)
  | 0 => some (some 0)
  | n + 1 => andThen (countMeshFaces xs C W fuel n) fun m => andThen (facesAt xs C W fuel n) fun fs => some (some (m + fs.length))

/-- Write the faces of one seed into the array of `nf` faces, from `face_index` (MeshingVoronoiMesher.cpp:1922-1931). -/
def writeFaces (nf : Nat) : List MeshFace → Nat → (Nat → Option MeshFace) → Option (Nat × (Nat → Option MeshFace))
  | [], k, a => some (k, a)
  | g :: gs, k, a => if k < nf then writeFaces nf gs (k + 1) (fun j => if j = k then some g else a j) else none

/-- The pass that fills the array (MeshingVoronoiMesher.cpp:1846-1936). -/
def fillMeshFaces (xs : List SeedRec) (C : Cells) (W : Welded) (fuel nf : Nat) : Nat → Option (Option (Nat × (Nat → Option MeshFace)))
  | 0 => some (some (0, fun _ => none))
  | n + 1 =>
    andThen (fillMeshFaces xs C W fuel nf n) fun r => andThen (facesAt xs C W fuel n) fun fs =>
      match writeFaces nf fs r.1 r.2 with
      | none => none
      | some r => some (some r)

/-- The mesh. -/
structure VMesh where
  nv : Nat
  vertices : Nat → Option (Nat → ℝ)
  nf : Nat
  faces : Nat → Option MeshFace

/-- `generate_3d_voronoi_mesh` from the cells on (MeshingVoronoiMesher.cpp:1672-1949). -/
noncomputable def meshOfCells (xs : List SeedRec) (C : Cells) (fuel : Nat) : Option (Option VMesh) :=
  andThen (weldCorners C xs.length fuel) fun W => andThen (countMeshFaces xs C W fuel xs.length) fun nf => andThen (fillMeshFaces xs C W fuel nf xs.length) fun r => some (some ⟨W.nv, W.vertices, nf, r.2⟩)

/-- `generate_3d_voronoi_mesh` (MeshingVoronoiMesher.cpp:1620-1949). -/
noncomputable def voroMesh (xs : List SeedRec) (fuel' fuel : Nat) : Option (Option VMesh) :=
  match meshTree xs.length xs with
  | none => none
  | some T => andThen (meshCells T xs fuel' fuel xs.length 0 fun _ => none) fun C => meshOfCells xs C fuel

end VoroCrust
