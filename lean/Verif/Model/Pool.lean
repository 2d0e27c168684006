import Verif.Model.Spheres
import Verif.Model.Random

/-! # Model of the active pool of `MeshingVoroCrustSampler`

The pool is the list of sub-triangles (or sub-edges) of the surface that are not yet known to be covered.  A
sub-triangle is a face index and a path of bits.  The midpoint `mid` and the area `area` are parameters wherever no
property of them is used, so those theorems hold for floating point as well.
-/

namespace VoroCrust

variable {V W : Type}

/-- `points` and `faces` (or `edges`): `corner f i` is the `i`-th corner index of face `f`. -/
structure PoolSurface (V : Type) where
  numPoints : Nat
  point : Nat → V
  numFaces : Nat
  corner : Nat → Nat → Nat

/-- `points[faces[f][1 + i]]`, bounds checked. -/
def PoolSurface.at (S : PoolSurface V) (f i : Nat) : Option V :=
  if f < S.numFaces ∧ S.corner f i < S.numPoints then some (S.point (S.corner f i)) else none

/-- One slot of `_active_pool_parent_face`, `_active_pool_children`, `_active_pool_cdf`
(MeshingVoroCrustSampler.h).  A null `children` pointer is the empty list. -/
structure PoolEntry (W : Type) where
  parent : Nat
  bits : List Bool
  weight : W

/-- The array `face_corners[0..5]`. -/
structure Corners6 (V : Type) where
  c0 : V
  c1 : V
  c2 : V
  c3 : V
  c4 : V
  c5 : V

/-- The loop that recomputes the three midpoints (MeshingVoroCrustSampler.cpp:2938-2943, 2987-2992). -/
def Corners6.mids (mid : V → V → V) (k : Corners6 V) : Corners6 V :=
  { k with c3 := mid k.c0 k.c1, c4 := mid k.c1 k.c2, c5 := mid k.c2 k.c0 }

/-- One level of the decoding loop of `get_active_face_corners` (MeshingVoroCrustSampler.cpp:2945-2993). -/
def Corners6.descend (mid : V → V → V) (b0 b1 : Bool) (k : Corners6 V) : Corners6 V :=
  if !b0 && !b1 then Corners6.mids mid { k with c1 := k.c3, c2 := k.c5 }
  else if !b0 && b1 then Corners6.mids mid { k with c0 := k.c3, c2 := k.c4 }
  else if b0 && !b1 then Corners6.mids mid { k with c0 := k.c5, c1 := k.c4 }
  else Corners6.mids mid { k with c0 := k.c3, c1 := k.c4, c2 := k.c5 }

/-- The first `n` iterations of the decoding loop; reading past the bit array is `none`. -/
def decodeFace (mid : V → V → V) (bits : List Bool) (k : Corners6 V) : Nat → Option (Corners6 V)
  | 0 => some k
  | n + 1 =>
    match decodeFace mid bits k n, bits[2 * n]?, bits[2 * n + 1]? with
    | some k', some b0, some b1 => some (k'.descend mid b0 b1)
    | _, _, _ => none

/-- `get_active_face_corners` (MeshingVoroCrustSampler.cpp:2928-2995) for a pool at refinement level `level`. -/
def faceCorners (mid : V → V → V) (S : PoolSurface V) (level : Nat) (e : PoolEntry W) : Option (Corners6 V) :=
  match S.at e.parent 0, S.at e.parent 1, S.at e.parent 2 with
  | some a, some b, some c => decodeFace mid e.bits (Corners6.mids mid ⟨a, b, c, a, a, a⟩) level
  | _, _, _ => none

/-- The corners of child `(b0, b1)` in `refine_active_face` (MeshingVoroCrustSampler.cpp:3005-3037). -/
def childCorners (k : Corners6 V) (b0 b1 : Bool) : V × V × V :=
  match b0, b1 with
  | false, false => (k.c0, k.c3, k.c5)
  | false, true => (k.c3, k.c1, k.c4)
  | true, false => (k.c5, k.c4, k.c2)
  | true, true => (k.c3, k.c4, k.c5)

/-- The child added by one iteration of `refine_active_face` (MeshingVoroCrustSampler.cpp:3040-3083).  Copying the
parent's bits reads `2 * level` cells. -/
def childEntry (area : V → V → V → W) (level : Nat) (e : PoolEntry W) (k : Corners6 V) (b : Bool × Bool) :
    Option (PoolEntry W) :=
  if 2 * level ≤ e.bits.length then
    let q := childCorners k b.1 b.2
    some { parent := e.parent, bits := e.bits.take (2 * level) ++ [b.1, b.2], weight := area q.1 q.2.1 q.2.2 }
  else none

/-- `refine_active_face` (MeshingVoroCrustSampler.cpp:2997-3090): children 0, 1, 2, 3 in this order. -/
def refineFace (area : V → V → V → W) (level : Nat) (e : PoolEntry W) (k : Corners6 V) : Option (List (PoolEntry W)) :=
  match childEntry area level e k (false, false), childEntry area level e k (false, true),
      childEntry area level e k (true, false), childEntry area level e k (true, true) with
  | some c0, some c1, some c2, some c3 => some [c0, c1, c2, c3]
  | _, _, _, _ => none

/-- The body of the face loop of `refine_active_pool` (MeshingVoroCrustSampler.cpp:2800-2809).  `covered` is the
disjunction of the three `face_covered` calls. -/
def uncoveredChildren (mid : V → V → V) (area : V → V → V → W) (covered : V → V → V → Option Bool) (S : PoolSurface V)
    (level : Nat) (e : PoolEntry W) : Option (List (PoolEntry W)) :=
  match faceCorners mid S level e with
  | none => none
  | some k =>
    match covered k.c0 k.c1 k.c2 with
    | none => none
    | some true => some []
    | some false => refineFace area level e k

/-! ## Threads -/

section Threads
variable {α β : Type}

/-- `num_thread_faces` (MeshingVoroCrustSampler.cpp:2770-2771). -/
def chunkSize (size T : Nat) : Nat := size / T + 1

/-- One iteration of the face loop of thread `t` (MeshingVoroCrustSampler.cpp:2797-2809).  The private state is
`iface` and the thread's own lists; `none` = undefined behaviour.  Threads only read the shared pool. -/
def threadStep (f : α → Option (List β)) (pool : List α) (c t : Nat) (s : Nat × Option (List β)) : Nat × Option (List β) :=
  if s.1 < c then
    match pool[t * c + s.1]?, s.2 with
    | none, r => (s.1 + 1, r)
    | some _, none => (s.1 + 1, none)
    | some e, some l => (s.1 + 1, (f e).map (l ++ ·))
  else s

/-- An execution of threads whose steps touch only their own state: `sched` lists which thread moves next. -/
def runSched {σ : Type} (step : Nat → σ → σ) : List Nat → (Nat → σ) → (Nat → σ)
  | [], st => st
  | t :: ts, st => runSched step ts (fun u => if u = t then step t (st t) else st u)

/-- `active_pool_size` after the prefix sum (MeshingVoroCrustSampler.cpp:2819): entry `t` is the number of children
found by threads `0, …, t`. -/
def prefixSize (part : Nat → List β) : Nat → Nat
  | 0 => (part 0).length
  | t + 1 => (part (t + 1)).length + prefixSize part t

/-- `num_prior_faces` (MeshingVoroCrustSampler.cpp:2841-2842). -/
def priorSize (part : Nat → List β) (t : Nat) : Nat := if 0 < t then prefixSize part (t - 1) else 0

/-- State of the copying phase: the shared new array and one counter per thread. -/
structure CopyState (β : Type) where
  cells : Nat → Option β
  next : Nat → Nat

/-- One copy by thread `t` (MeshingVoroCrustSampler.cpp:2845-2851); writing outside the array of `size` cells or
reading past the private list is `none`. -/
def copyStep (part : Nat → List β) (size t : Nat) (s : CopyState β) : Option (CopyState β) :=
  if s.next t < prefixSize part t - priorSize part t then
    match (part t)[s.next t]? with
    | none => none
    | some x =>
      if priorSize part t + s.next t < size then
        some { cells := fun j => if j = priorSize part t + s.next t then some x else s.cells j, next := fun u => if u = t then s.next t + 1 else s.next u }
      else none
  else some s

/-- The copying phase under the schedule `sched`. -/
def runCopy (part : Nat → List β) (size : Nat) : List Nat → CopyState β → Option (CopyState β)
  | [], s => some s
  | t :: ts, s =>
    match copyStep part size t s with
    | none => none
    | some s' => runCopy part size ts s'

/-- The lists found by the threads, if no thread met undefined behaviour. -/
def gatherParts (T : Nat) (st : Nat → Nat × Option (List β)) : Option (Nat → List β) :=
  if (List.range T).all fun t => (st t).2.isSome then some fun t => ((st t).2).getD [] else none

/-- `refine_active_pool` (MeshingVoroCrustSampler.cpp:2757-2889) with `T` threads: first parallel region under
`sched₁`, prefix sums, second parallel region under `sched₂`; the result is the new array.  `f` is the work on one
face.  A barrier ends each region. -/
def refineParallel (f : α → Option (List β)) (T : Nat) (pool : List α) (sched₁ sched₂ : List Nat) :
    Option (List (Option β)) :=
  if T = 0 then none
  else
    match gatherParts T (runSched (threadStep f pool (chunkSize pool.length T)) sched₁ fun _ => (0, some [])) with
    | none => none
    | some part =>
      match runCopy part (prefixSize part (T - 1)) sched₂ ⟨fun _ => none, fun _ => 0⟩ with
      | none => none
      | some s => some ((List.range (prefixSize part (T - 1))).map s.cells)

/-- What one thread computes: every face in order. -/
def refineSeq (f : α → Option (List β)) : List α → Option (List β)
  | [] => some []
  | e :: es =>
    match f e, refineSeq f es with
    | some l, some r => some (l ++ r)
    | _, _ => none

end Threads

/-! ## Patches -/

/-- The index range of `initiate_active_pool` and the new value of `num_patches`, which is passed by reference
(MeshingVoroCrustSampler.cpp:2581-2592).  `none`: division by zero. -/
def patchRange (nf np active : Nat) : Option (Nat × Nat × Nat) :=
  if np = 0 then none
  else
    let bin := nf / np
    let np' := if bin = 0 then 1 else np
    let bin' := if bin = 0 then nf else bin
    let lo := active * bin'
    some (lo, if active = np' - 1 then nf else lo + bin', np')

/-- The faces of the new pool (MeshingVoroCrustSampler.cpp:2600-2618). -/
def patchFaces (nf lo hi : Nat) : List Nat := (List.range nf).filter fun i => decide (lo ≤ i ∧ i < hi)

/-- The patch loop of `generate_surface_spheres` (MeshingVoroCrustSampler.cpp:1427-1429): for every pool that is set
up, its declared size `max - min` and its faces.  `none` in the list of results cannot be told from out of fuel, so
fuel is a separate outcome. -/
def patchLoop (nf : Nat) : Nat → Nat → Nat → Option (List (Nat × List Nat))
  | fuel, i, np =>
    if i < np then
      match fuel with
      | 0 => none
      | fuel + 1 =>
        match patchRange nf np i with
        | none => none
        | some (lo, hi, np') =>
          if lo ≤ hi then (patchLoop nf fuel (i + 1) np').map ((hi - lo, patchFaces nf lo hi) :: ·) else none
    else some []

/-- The initial pool for a list of faces (MeshingVoroCrustSampler.cpp:2594-2618). -/
def initialPool (area : V → V → V → W) (S : PoolSurface V) : List Nat → Option (List (PoolEntry W))
  | [] => some []
  | f :: fs =>
    match S.at f 0, S.at f 1, S.at f 2, initialPool area S fs with
    | some a, some b, some c, some r => some (⟨f, [], area a b c⟩ :: r)
    | _, _, _, _ => none

/-! ## The coverage test and the refinement loop -/

/-- A sphere tree. -/
structure STree where
  store : PointStore ℝ
  links : Links

/-- `0.5 * (a + b)`. -/
noncomputable def midpoint3 (a b : Nat → ℝ) : Nat → ℝ := fun d => 0.5 * (a d + b d)

/-- The three `face_covered` calls (MeshingVoroCrustSampler.cpp:2803-2806). -/
noncomputable def coveredFace (surf edge corner : STree) (L ratio : ℝ) (A B C : Nat → ℝ) : Option Bool :=
  match faceCovered surf.store surf.links L ratio A B C with
  | none => none
  | some true => some true
  | some false =>
    match faceCovered edge.store edge.links L 0 A B C with
    | none => none
    | some true => some true
    | some false => faceCovered corner.store corner.links L 0 A B C

/-- One call of `refine_active_pool`: the trees at that moment, the number of threads and the two schedules. -/
structure Round where
  surf : STree
  edge : STree
  corner : STree
  threads : Nat
  sched₁ : List Nat
  sched₂ : List Nat

/-- The pool and its refinement level after some calls of `refine_active_pool` (MeshingVoroCrustSampler.cpp:1485-1490).
`none`: undefined behaviour or an unwritten cell in the new array.  The level only grows if the new pool is not
empty (2862). -/
noncomputable def refineRounds (area : (Nat → ℝ) → (Nat → ℝ) → (Nat → ℝ) → W) (S : PoolSurface (Nat → ℝ)) (L ratio : ℝ) :
    List Round → Nat → List (PoolEntry W) → Option (Nat × List (PoolEntry W))
  | [], level, pool => some (level, pool)
  | r :: rs, level, pool =>
    match refineParallel (uncoveredChildren midpoint3 area (coveredFace r.surf r.edge r.corner L ratio) S level)
        r.threads pool r.sched₁ r.sched₂ with
    | none => none
    | some cells =>
      if cells.all Option.isSome then
        refineRounds area S L ratio rs (if cells.length = 0 then level else level + 1) cells.reduceOption
      else none

/-! ## Sharp edges -/

/-- The array `edge_corners[0..2]`. -/
structure Corners3 (V : Type) where
  c0 : V
  c1 : V
  c2 : V

/-- One level of `get_active_edge_corners` (MeshingVoroCrustSampler.cpp:2484-2508). -/
def Corners3.descend (mid : V → V → V) (b : Bool) (k : Corners3 V) : Corners3 V :=
  if !b then ⟨k.c0, k.c2, mid k.c0 k.c2⟩ else ⟨k.c2, k.c1, mid k.c2 k.c1⟩

/-- The first `n` iterations of the decoding loop. -/
def decodeEdge (mid : V → V → V) (bits : List Bool) (k : Corners3 V) : Nat → Option (Corners3 V)
  | 0 => some k
  | n + 1 =>
    match decodeEdge mid bits k n, bits[n]? with
    | some k', some b => some (k'.descend mid b)
    | _, _ => none

/-- `get_active_edge_corners` (MeshingVoroCrustSampler.cpp:2470-2512); here `corner e i` is `edges[e][i]`. -/
def edgeCorners (mid : V → V → V) (S : PoolSurface V) (level : Nat) (e : PoolEntry W) : Option (Corners3 V) :=
  match S.at e.parent 0, S.at e.parent 1 with
  | some a, some b => decodeEdge mid e.bits ⟨a, b, mid a b⟩ level
  | _, _ => none

/-- The child added by one iteration of `refine_active_edge` (MeshingVoroCrustSampler.cpp:2522-2571). -/
def childEdge (len : V → V → W) (level : Nat) (e : PoolEntry W) (k : Corners3 V) (b : Bool) : Option (PoolEntry W) :=
  if level ≤ e.bits.length then
    let q := if b then (k.c2, k.c1) else (k.c0, k.c2)
    some { parent := e.parent, bits := e.bits.take level ++ [b], weight := len q.1 q.2 }
  else none

/-- `refine_active_edge` (MeshingVoroCrustSampler.cpp:2514-2579). -/
def refineEdge (len : V → V → W) (level : Nat) (e : PoolEntry W) (k : Corners3 V) : Option (List (PoolEntry W)) :=
  match childEdge len level e k false, childEdge len level e k true with
  | some c0, some c1 => some [c0, c1]
  | _, _ => none

/-- The body of the loop of `refine_active_pool_edges` (MeshingVoroCrustSampler.cpp:2397-2404). -/
def uncoveredEdges (mid : V → V → V) (len : V → V → W) (covered : V → V → Option Bool) (S : PoolSurface V)
    (level : Nat) (e : PoolEntry W) : Option (List (PoolEntry W)) :=
  match edgeCorners mid S level e with
  | none => none
  | some k =>
    match covered k.c0 k.c1 with
    | none => none
    | some true => some []
    | some false => refineEdge len level e k

/-- The two `edge_covered` calls (MeshingVoroCrustSampler.cpp:2400-2401). -/
noncomputable def coveredEdge (edge corner : STree) (L ratio : ℝ) (A B : Nat → ℝ) : Option Bool :=
  match edgeCovered corner.store corner.links L 0 A B with
  | none => none
  | some true => some true
  | some false => edgeCovered edge.store edge.links L ratio A B

/-- The pool of `initiate_active_pool_edges` (MeshingVoroCrustSampler.cpp:2360-2382): every edge in order. -/
def initialEdges (len : V → V → W) (S : PoolSurface V) : Nat → Option (List (PoolEntry W))
  | 0 => some []
  | n + 1 =>
    match initialEdges len S n, S.at n 0, S.at n 1 with
    | some r, some a, some b => some (r ++ [⟨n, [], len a b⟩])
    | _, _, _ => none

/-- Several calls of `refine_active_pool_edges` (MeshingVoroCrustSampler.cpp:2385-2431), which is sequential, with the
edge and corner spheres of each moment. -/
noncomputable def refineEdgeRounds (len : (Nat → ℝ) → (Nat → ℝ) → W) (S : PoolSurface (Nat → ℝ)) (L ratio : ℝ) :
    List (STree × STree) → Nat → List (PoolEntry W) → Option (Nat × List (PoolEntry W))
  | [], level, pool => some (level, pool)
  | r :: rs, level, pool =>
    match refineSeq (uncoveredEdges midpoint3 len (coveredEdge r.1 r.2 L ratio) S level) pool with
    | none => none
    | some new => refineEdgeRounds len S L ratio rs (if new.length = 0 then level else level + 1) new

/-! ## Drawing from the pool -/

/-- `sample_active_faces_uniformly` (MeshingVoroCrustSampler.cpp:2892-2926) for a pool with the cumulative table `cdf`: `u` is the
first number drawn, `us` the ones drawn by `sample_uniformly_from_simplex`.  Result: the dart and `dart_face`. -/
noncomputable def sampleActiveFace (S : PoolSurface (Nat → ℝ)) (level : Nat) (pool : List (PoolEntry W)) (cdf : Nat → ℝ) (u : ℝ)
    (us : Nat → ℝ) : Option ((Nat → ℝ) × Nat) :=
  match tablePick pool.length (fun i => realLt u (cdf i)) (fun i => realLt (cdf i) u) pool.length with
  | none => none
  | some i =>
    match pool[i]? with
    | none => none
    | some e =>
      match faceCorners midpoint3 S level e with
      | none => none
      | some k =>
        match sampleSimplex 3 (fun j => if j = 0 then k.c0 else if j = 1 then k.c1 else k.c2) us with
        | none => none
        | some p => some (p, e.parent)

/-- `sample_active_edges_uniformly` (MeshingVoroCrustSampler.cpp:2433-2468); `v` is the second number drawn. -/
noncomputable def sampleActiveEdge (S : PoolSurface (Nat → ℝ)) (level : Nat) (pool : List (PoolEntry W)) (cdf : Nat → ℝ) (u v : ℝ) :
    Option ((Nat → ℝ) × Nat) :=
  match tablePick pool.length (fun i => realLt u (cdf i)) (fun i => realLt (cdf i) u) pool.length with
  | none => none
  | some i =>
    match pool[i]? with
    | none => none
    | some e =>
      match edgeCorners midpoint3 S level e with
      | none => none
      | some k => some (fun d => k.c0 d + v * (k.c1 d - k.c0 d), e.parent)

end VoroCrust
