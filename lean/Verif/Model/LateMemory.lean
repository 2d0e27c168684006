import Verif.Model.AddedMemory

/-!
# Model of the memory of a run from the surface seeds to the mesh

`MeshingVoroCrust::generate_interior_seeds` (MeshingVoroCrust.cpp:307-616) with all the arrays of the functions it calls, and the mesh after it (MeshingVoroCrust.cpp:299-302).  C134 has the steps of the whole run, with the memory of these
functions taken as given; here they are the models of C135, C136 and C137, one after the other on one heap.  The trees of the spheres and of the sizing function, which are freed when the arrays are made, and the tree of the retrieval with
its points are in C129; the latter is one block here.  The spheres are not needed beyond whether there are any.
-/

namespace VoroCrust

/-- What the part from the seeds to the mesh depends on: the number of threads; whether there are surface spheres, edge spheres, corner spheres and sizing points; the sides of the edge spheres; the imposed points, if asked for; how many of them are seeds in the
end; whether seeds are removed near them; the rounds of the front and its last round; whether monitoring points are written; and the mesh, if a file is asked for. -/
structure LatePlan where
  threads : Nat
  trees : List Bool
  sides : List EdgeTry
  points : Option (List ImposedPoint)
  hits : Nat
  removed : Bool
  rounds : List FrontRound
  last : List SeedFound
  waiting : Bool
  monitor : Bool
  mesh : Option (List (Option CellPlan) × Nat × List Bool)
  vcg : Bool
  exodus : Bool

/-- The two arrays of some spheres, if there are any (MeshingVoroCrust.cpp:332-392). -/
def sphereArrays : List Bool → Heap → Option (Heap × List (List Nat))
  | [], h => some (h, [])
  | t :: ts, h => do
    let h1 ← h.step (if t then 2 else 0) []
    let (h2, ls) ← sphereArrays ts h1
    some (h2, freshIds h.next (if t then 2 else 0) :: ls)

/-- `MeshingVoronoiMesher::generate_interior_seeds` as in C135, with the trees of the spheres and the samplers of the threads (MeshingVoronoiMesher.cpp:882-967, 1587-1611).  These are allocated here before the tree of the seeds, in the code
after it. -/
def interiorSeedsMem (p : LatePlan) (seeds : List Nat) (h : Heap) : Option (Heap × List Nat) := do
  let (h1, ls) ← pointTrees p.trees h
  let h2 ← h1.step p.threads []
  let (h3, s) ← seedingLife seeds p.rounds p.last p.waiting h2
  let h4 ← h3.step 0 (treesFreed p.trees ls)
  let h5 ← h4.step 0 (freshIds h1.next p.threads)
  some (h5, s)

/-- Seeds near imposed points are removed (MeshingVoroCrust.cpp:519-538). -/
def removeSeeds (removed : Bool) (seeds : List Nat) (h : Heap) : Option (Heap × List Nat) :=
  if removed then do
    let h1 ← h.step 3 seeds
    some (h1, freshIds h.next 3)
  else some (h, seeds)

/-- The retrieval of the closest seeds, if points were imposed, which are in the array `b` (MeshingVoroCrust.cpp:453-551): the tree, `x`, `valid_seed`, and `points_in_sphere` for each of the `hits` points, which is not freed. -/
def retrieveMem (hits : Nat) (removed : Bool) (b : Option Nat) (seeds : List Nat) (h : Heap) : Option (Heap × List Nat) :=
  match b with
  | none => some (h, seeds)
  | some b => do
    let h1 ← h.step 3 []
    let h2 ← h1.step hits []
    let (h3, seeds') ← removeSeeds removed seeds h2
    let h4 ← h3.step 0 (b :: freshIds h.next 3)
    some (h4, seeds')

/-- Monitoring points are written, not if some were imposed (MeshingVoroCrust.cpp:433, 576-612). -/
def monitorMem (monitor : Bool) (h : Heap) : Option Heap := if monitor then h.step 2 (freshIds h.next 2) else some h

/-- The mesh, which frees the seeds; without it they stay (MeshingVoroCrust.cpp:299-302). -/
def lateMesh (p : LatePlan) (seeds : List Nat) (h : Heap) : Option Heap :=
  match p.mesh with
  | none => some h
  | some (ps, nf, meshed) => explicitMeshMem seeds ps nf meshed p.vcg p.exodus h

/-- From the seeds to the mesh (MeshingVoroCrust.cpp:295-302, 307-616). -/
def lateMem (p : LatePlan) (h : Heap) : Option Heap := do
  let h0 ← h.step 3 []
  let (h1, ls) ← sphereArrays p.trees h0
  let (h2, s1, b) ← addedSeedsMem (freshIds h.next 3) p.trees p.sides p.points h1
  let (h3, s2) ← interiorSeedsMem p s1 h2
  let (h4, s3) ← retrieveMem p.hits p.removed b s2 h3
  let h5 ← h4.step 0 (treesFreed p.trees ls)
  let h6 ← monitorMem (p.monitor && p.points.isNone) h5
  lateMesh p s3 h6

end VoroCrust
