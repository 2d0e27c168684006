import Verif.Model.MeshMemory

/-!
# Model of the memory of the seeds that are added before the interior seeds

`ensure_sharp_edge_spheres_are_Delaunay` (MeshingVoronoiMesher.cpp:55-447), `impose_interior_seeds` (MeshingVoronoiMesher.cpp:449-836) and `load_spheres_csv` (MeshingVoronoiMesher.cpp:2591-2635) with the arrays they allocate.  A block is a
number as in `TreeMemory`; `none` is the freeing of a block that is not allocated, or a write behind the end of an array that grows.  Which spheres there are, how many seeds and spheres are found near a point, and which seeds are added are
parameters.  The imposed points are taken in the order of the file; the code shares them between the threads.  Arrays that are allocated or freed in a row are taken as one step.  The sizes of the arrays of the trees are in C62.
-/

namespace VoroCrust

/-- The tree of some points, if there are any (MeshingVoronoiMesher.cpp:96-109, 118-131, 140-153, 162-175; 2641-2657; 2681-2700): two arrays of the tree, the order of the points, which is freed, the sorted points and their two indices, and
two copies of the tree, which are freed. -/
def pointTree (there : Bool) (h : Heap) : Option (Heap × List Nat) :=
  if there then do
    let h1 ← h.step 2 []
    let h2 ← h1.step 1 (freshIds h1.next 1)
    let h3 ← h2.step 3 []
    let h4 ← h3.step 2 (freshIds h3.next 2)
    some (h4, freshIds h.next 2 ++ freshIds h2.next 3)
  else some (h, [])

/-- The trees of the surface spheres, the edge spheres, the corner spheres and the sizing points (MeshingVoronoiMesher.cpp:87-175, 485-572). -/
def pointTrees : List Bool → Heap → Option (Heap × List (List Nat))
  | [], h => some (h, [])
  | t :: ts, h => do
    let (h1, l) ← pointTree t h
    let (h2, ls) ← pointTrees ts h1
    some (h2, l :: ls)

/-- The arrays of the trees that are freed at the end: those whose points there are (MeshingVoronoiMesher.cpp:422-444, 811-833). -/
def treesFreed : List Bool → List (List Nat) → List Nat
  | t :: ts, l :: ls => (if t then l else []) ++ treesFreed ts ls
  | _, _ => []

/-- Searches for the spheres near a point; each array is freed after it (MeshingVoronoiMesher.cpp:284-326, 620-761). -/
def nearTries : List Nat → Heap → Option Heap
  | [], h => some h
  | k :: ks, h => do
    let (h1, ns) ← foundArray k h
    let h2 ← h1.step 0 ns
    nearTries ks h2

/-- One side of one edge sphere: the number of seeds on the common circle, the numbers of the surface spheres near the darts, and whether a place is found. -/
structure EdgeTry where
  seeds : Nat
  darts : List Nat
  found : Bool

/-- The darts of one side, if the circle has not more than two seeds (MeshingVoronoiMesher.cpp:275-350). -/
def edgeDarts (t : EdgeTry) (h : Heap) : Option Heap := if 2 < t.seeds then some h else nearTries t.darts h

/-- The arrays `added_seeds`, `added_seeds_sizing` and `added_seeds_id`, their size and the number of seeds in them. -/
structure AddedMem where
  blocks : List Nat
  cap : Nat
  num : Nat

/-- A seed is written, and full arrays are replaced (MeshingVoronoiMesher.cpp:365-384). -/
def pushAdded (add : Bool) (A : AddedMem) (h : Heap) : Option (Heap × AddedMem) :=
  if add then
    if A.num < A.cap ∧ ∀ b ∈ A.blocks, b ∈ h.live then
      if A.num + 1 = A.cap then do
        let h1 ← h.step 3 A.blocks
        some (h1, ⟨freshIds h.next 3, 2 * A.cap, A.num + 1⟩)
      else some (h, ⟨A.blocks, A.cap, A.num + 1⟩)
    else none
  else some (h, A)

/-- Whether a seed is added for one side (MeshingVoronoiMesher.cpp:275, 352-363). -/
def EdgeTry.adds (t : EdgeTry) : Bool := decide (t.seeds ≤ 2) && t.found

/-- The sides of the edge spheres (MeshingVoronoiMesher.cpp:194-386). -/
def edgeTries : List EdgeTry → AddedMem → Heap → Option (Heap × AddedMem)
  | [], A, h => some (h, A)
  | t :: ts, A, h => do
    let (h1, ns) ← foundArray t.seeds h
    let h2 ← h1.step 0 ns
    let h3 ← edgeDarts t h2
    let (h4, A') ← pushAdded t.adds A h3
    edgeTries ts A' h4

/-- The three arrays of the seeds are replaced if there are new ones (MeshingVoronoiMesher.cpp:389-410). -/
def moreSeeds (num : Nat) (seeds : List Nat) (h : Heap) : Option (Heap × List Nat) :=
  if 0 < num then do
    let h1 ← h.step 3 seeds
    some (h1, freshIds h.next 3)
  else some (h, seeds)

/-- `ensure_sharp_edge_spheres_are_Delaunay` (MeshingVoronoiMesher.cpp:55-447) with the arrays `seeds`: the tree of the seeds, their sorted sizes, the other trees, nine short arrays and those of the added seeds. -/
def edgeSeedsMem (seeds : List Nat) (ts : List Bool) (sides : List EdgeTry) (h : Heap) : Option (Heap × List Nat) := do
  let (h1, tree) ← pointTree true h
  let h2 ← sortedSizesMem h1
  let (h3, ls) ← pointTrees ts h2
  let h4 ← h3.step 9 []
  let h5 ← h4.step 3 []
  let (h6, A) ← edgeTries sides ⟨freshIds h4.next 3, 100, 0⟩ h5
  let (h7, seeds') ← moreSeeds A.num seeds h6
  let h8 ← h7.step 0 (freshIds h3.next 9)
  let h9 ← h8.step 0 A.blocks
  let h10 ← h9.step 0 tree
  let h11 ← h10.step 0 (treesFreed ts ls)
  some (h11, seeds')

/-- One imposed point: the searches made for it, none if it is outside, and whether it is valid. -/
structure ImposedPoint where
  searches : List Nat
  valid : Bool

/-- The imposed points are tested; `x` is freed on every way (MeshingVoronoiMesher.cpp:582-765). -/
def testPoints : List ImposedPoint → Heap → Option Heap
  | [], h => some h
  | p :: ps, h => do
    let h1 ← h.step 1 []
    let h2 ← nearTries p.searches h1
    let h3 ← h2.step 0 (freshIds h.next 1)
    testPoints ps h3

/-- The copy of one point. -/
def copyPoint (valid : Bool) (h : Heap) : Option Heap := if valid then h.step 1 (freshIds h.next 1) else some h

/-- The valid points are copied, each through its own `x` (MeshingVoronoiMesher.cpp:782-799). -/
def copyPoints : List ImposedPoint → Heap → Option Heap
  | [], h => some h
  | p :: ps, h => do
    let h1 ← copyPoint p.valid h
    copyPoints ps h1

/-- The seeds with the valid points (MeshingVoronoiMesher.cpp:771-804). -/
def withPoints (ps : List ImposedPoint) (seeds : List Nat) (h : Heap) : Option (Heap × List Nat) :=
  if 0 < ps.countP (fun p => p.valid) then do
    let h1 ← h.step 3 []
    let h2 ← copyPoints ps h1
    let h3 ← h2.step 0 seeds
    some (h3, freshIds h.next 3)
  else some (h, seeds)

/-- `impose_interior_seeds` (MeshingVoronoiMesher.cpp:449-836) with the arrays `seeds`: the trees as above, `valid_seed` and `imposed_seed_region_id`. -/
def imposeMem (seeds : List Nat) (ts : List Bool) (ps : List ImposedPoint) (h : Heap) : Option (Heap × List Nat) := do
  let (h1, tree) ← pointTree true h
  let h2 ← sortedSizesMem h1
  let (h3, ls) ← pointTrees ts h2
  let h4 ← h3.step 2 []
  let h5 ← testPoints ps h4
  let (h6, seeds') ← withPoints ps seeds h5
  let h7 ← h6.step 0 (freshIds h3.next 2)
  let h8 ← h7.step 0 tree
  let h9 ← h8.step 0 (treesFreed ts ls)
  some (h9, seeds')

/-- `load_spheres_csv` (MeshingVoronoiMesher.cpp:2591-2635) for a file with `k` spheres: the array, which begins with room for a hundred. -/
def loadSpheresMem (k : Nat) (h : Heap) : Option (Heap × Nat) := do
  let h1 ← h.step 1 []
  growFound k h.next 100 0 h1

/-- The seeds before the interior ones (MeshingVoroCrust.cpp:400-439): those of the sharp edges, and the points of the file `monitoring_points.csv` if they are asked for.  The array of the points stays; it is freed at the end of the step
(MeshingVoroCrust.cpp:544). -/
def addedSeedsMem (seeds : List Nat) (ts : List Bool) (sides : List EdgeTry) (points : Option (List ImposedPoint)) (h : Heap) : Option (Heap × List Nat × Option Nat) := do
  let (h1, s1) ← edgeSeedsMem seeds ts sides h
  match points with
  | none => some (h1, s1, none)
  | some ps => do
    let (h2, b) ← loadSpheresMem ps.length h1
    let (h3, s2) ← imposeMem s1 ts ps h2
    some (h3, s2, some b)

end VoroCrust
