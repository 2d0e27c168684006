import Verif.Model.FrontMemory

/-!
# Model of the memory of the explicit mesh

`generate_explicit_mesh` (MeshingVoroCrust.cpp:618-758), `generate_3d_voronoi_mesh` (MeshingVoronoiMesher.cpp:1620-1949) and `get_3d_Voronoi_cell` (MeshingVoronoiMesher.cpp:1951-2107) with the arrays they allocate.  A block is a number
as in `TreeMemory`; `none` is the freeing of a block that is not allocated, or a write behind the end of an array of neighbours or of corners.  How many neighbours are found, how many corners are cut, how many faces there are and which
seeds are ghosts are parameters.  The seeds are taken in the order of the input; the code takes them in the order of the tree and shares them between the threads.  Arrays that are allocated or freed in a row are taken as one step.  What
the Exodus library allocates and frees itself is left out.
-/

namespace VoroCrust

/-- `k` blocks are allocated, and then the blocks `l` are freed. -/
def Heap.step (k : Nat) (l : List Nat) (h : Heap) : Option Heap :=
  match freeBlocks l (freshIds h.next k ++ h.live) with
  | none => none
  | some live => some ⟨h.next + k, live⟩

/-- `k` corners are added to the three arrays `bs` with room for `cap` corners and with `num` in them (MeshingVoronoiMesher.cpp:2220-2262): `xk`, `seeds` and `neighbors` of the corner are freed again, and full arrays are replaced. -/
def growCorners : Nat → List Nat → Nat → Nat → Heap → Option (Heap × List Nat)
  | 0, bs, _, _, h => some (h, bs)
  | k + 1, bs, cap, num, h =>
    if num < cap ∧ ∀ b ∈ bs, b ∈ h.live then do
      let h1 ← h.step 3 (freshIds h.next 3)
      if num + 1 = cap then do
        let h2 ← h1.step 3 bs
        growCorners k (freshIds h1.next 3) (2 * cap) (num + 1) h2
      else growCorners k bs cap (num + 1) h1
    else none

/-- What happens with one radius: the number of neighbours, and the number of corners that are made. -/
structure CellTry where
  neighbours : Nat
  corners : Nat

/-- The polytope of one radius (MeshingVoronoiMesher.cpp:1967-2026, 2109-2118): the array of the neighbours and the one of their places, and the three arrays of the corners, which begin with eight of a hundred.  Nothing if there is no
neighbour. -/
def cellTry (t : CellTry) (h : Heap) : Option (Heap × List Nat × List Nat) := do
  let (h1, ns) ← foundArray t.neighbours h
  if t.neighbours = 0 then some (h1, [], [])
  else do
    let h2 ← h1.step 4 []
    let (h3, bs) ← growCorners t.corners (freshIds (h1.next + 1) 3) 100 8 h2
    some (h3, h1.next :: ns, bs)

/-- The radii that are too small (MeshingVoronoiMesher.cpp:1963-1971, 2101-2102). -/
def cellTries : List CellTry → Heap → Option Heap
  | [], h => some h
  | t :: ts, h => do
    let (h1, ls, bs) ← cellTry t h
    let h2 ← h1.step 0 (ls ++ bs)
    cellTries ts h2

/-- The four arrays of a cell: the places, the neighbours, the seeds and the indices of its corners. -/
structure CellMem where
  corners : Nat
  neighbours : Nat
  seeds : Nat
  indices : Nat

/-- The radii that are too small and the last one.  In the code the last one has a neighbour; this is not asked for. -/
structure CellPlan where
  small : List CellTry
  last : CellTry

/-- `get_3d_Voronoi_cell` (MeshingVoronoiMesher.cpp:1951-2107). -/
def voronoiCellMem (p : CellPlan) (h : Heap) : Option (Heap × CellMem) := do
  let h0 ← h.step 3 []
  let h1 ← cellTries p.small h0
  let (h2, ls, bs) ← cellTry p.last h1
  let h3 ← h2.step 5 (bs ++ [h2.next])
  let h4 ← h3.step 0 ls
  let h5 ← h4.step 0 (freshIds h.next 3)
  some (h5, ⟨h2.next + 1, h2.next + 2, h2.next + 3, h2.next + 4⟩)

/-- The cells of the seeds; nothing for a ghost (MeshingVoronoiMesher.cpp:1651-1666). -/
def cellsMem : List (Option CellPlan) → Heap → Option (Heap × List (Option CellMem))
  | [], h => some (h, [])
  | none :: ps, h => do
    let (h1, cs) ← cellsMem ps h
    some (h1, none :: cs)
  | some p :: ps, h => do
    let (h1, c) ← voronoiCellMem p h
    let (h2, cs) ← cellsMem ps h1
    some (h2, some c :: cs)

/-- One array of every cell that is there. -/
def eachCell (f : CellMem → Nat) (cs : List (Option CellMem)) : List Nat := cs.reduceOption.map f

/-- The vertices, the array of the faces, and the faces. -/
structure MeshMem where
  vertices : Nat
  faces : Nat
  rows : List Nat

/-- `generate_3d_voronoi_mesh` (MeshingVoronoiMesher.cpp:1620-1949) with `nf` faces. -/
def voronoiMeshMem (ps : List (Option CellPlan)) (nf : Nat) (h : Heap) : Option (Heap × MeshMem) := do
  let h0 ← h.step 6 []
  let h1 ← h0.step 5 []
  let (h2, cs) ← cellsMem ps h1
  let h3 ← h2.step 0 (freshIds h.next 6)
  let h4 ← h3.step 1 (eachCell CellMem.corners cs ++ [h0.next + 1])
  let h5 ← h4.step (1 + nf) (eachCell CellMem.seeds cs ++ eachCell CellMem.neighbours cs ++ [h0.next, h0.next + 3, h0.next + 2])
  let h6 ← h5.step 0 (eachCell CellMem.indices cs ++ [h0.next + 4])
  some (h6, ⟨h3.next, h4.next, freshIds (h4.next + 1) nf⟩)

/-- The number of cells, where each seed that is no ghost has one. -/
def numMeshed (meshed : List Bool) : Nat := meshed.count true

/-- The file `mesh.vcg`, if it is asked for (MeshingVoronoiMesher.cpp:2436, 2446, 2555). -/
def vcgMem (vcg : Bool) (h : Heap) : Option Heap := if vcg then h.step 2 (freshIds h.next 2) else some h

/-- The file `mesh.exo`, if it is asked for (MeshingVoronoiMesher.cpp:3160-3196, 3427): `x`, `y`, `z`, `num_face_corners`, `faces_entries`, `num_cell_faces` and `cells_entries`, which are not freed.  This is the code with `USE_EXODUS`. -/
def exodusMem (exodus : Bool) (h : Heap) : Option Heap := if exodus then h.step 7 [] else some h

/-- `generate_explicit_mesh` (MeshingVoroCrust.cpp:618-758) with the arrays `seeds`, after the change of the regions of which the seeds `meshed` are no ghosts; with the files `mesh.vcg` and `mesh.exo` or
without. -/
def explicitMeshMem (seeds : List Nat) (ps : List (Option CellPlan)) (nf : Nat) (meshed : List Bool) (vcg exodus : Bool) (h : Heap) : Option Heap := do
  let (h1, M) ← voronoiMeshMem ps nf h
  let h2 ← h1.step 1 [h1.next]
  let h3 ← h2.step (2 + numMeshed meshed) []
  let h4 ← vcgMem vcg h3
  let h4 ← exodusMem exodus h4
  let h5 ← h4.step 0 (M.rows ++ [M.faces, M.vertices, h2.next])
  let h6 ← h5.step 0 (freshIds (h2.next + 2) (numMeshed meshed) ++ [h2.next + 1])
  h6.step 0 seeds

/-- `generate_mesh_from_seeds_file` (MeshingVoroCrust.cpp:761-768, 798-800): three arrays are read. -/
def meshFromSeedsMem (ps : List (Option CellPlan)) (nf : Nat) (meshed : List Bool) (vcg exodus : Bool) (h : Heap) : Option Heap := do
  let h1 ← h.step 3 []
  explicitMeshMem (freshIds h.next 3) ps nf meshed vcg exodus h1

end VoroCrust
