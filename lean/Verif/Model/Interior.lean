import Verif.Model.Spheres
import Verif.Model.KdOrder
import Verif.Model.Memory
import Mathlib.Algebra.Order.Floor.Semiring

/-!
# Model of the interior seeds

`MeshingVoronoiMesher` (`impose_interior_seeds`, `generate_interior_seeds`, `impose_lipschitz_continuity`) and
`MeshingVoroCrust::generate_interior_seeds`.  Exact real arithmetic.

Simplifications: the three parallel arrays `seeds`, `seeds_sizing`, `seeds_region_id` are one array of records; a thread
reads a shared variable and writes it in separate steps, but the coordinates of one point are copied in one step.
-/

namespace VoroCrust

open Classical

/-- One entry of `seeds[3 * i ..]`, `seeds_sizing[i]`, `seeds_region_id[i]`. -/
structure SeedRec where
  x : Nat → ℝ
  size : ℝ
  region : Nat

/-! ## The search trees of the mesher -/

/-- The points of a list of seeds, as a store for the tree functions. -/
noncomputable def recStore (xs : List SeedRec) : PointStore ℝ :=
  { pts := fun i => match xs[i]? with | some s => s.x | none => fun _ => 0, num := xs.length, dim := 3, lt := realLt }

/-- A tree with re-enumerated points and `old_index`. -/
structure MTree where
  P : PointStore ℝ
  ln : Links
  old : Nat → Option Nat

/-- `build_balanced_kd_tree` and `re_enumerate_points_for_better_memory_access` into arrays `tree_right`, `tree_left` of `alloc` entries
(MeshingVoronoiMesher.cpp:853-863, 1576-1590; the loop 2645-2648 writes entry `iseed` for all points). -/
noncomputable def meshTree (alloc : Nat) (xs : List SeedRec) : Option MTree :=
  if alloc < xs.length then none
  else
    match buildBalanced (recStore xs) true with
    | none => none
    | some ln =>
      match reEnumerate (recStore xs) ln with
      | none => none
      | some r => some ⟨r.store, r.links, r.oldIndex⟩

/-- The guarded trees: `if (num > 0)` (MeshingVoronoiMesher.cpp:883-897, 907-921, 928-942, 953-967). -/
noncomputable def guardedTree (alloc : Nat) (xs : List SeedRec) : Option (Option MTree) :=
  if 0 < xs.length then (meshTree alloc xs).map some else some none

/-- The spheres of the sharp features and the sizing points. -/
structure Features where
  surface : List SeedRec
  edges : List SeedRec
  corners : List SeedRec
  sizing : List SeedRec

/-- Their trees. -/
structure FeatureTrees where
  surface : Option MTree
  edges : Option MTree
  corners : Option MTree
  sizing : Option MTree

/-- The four trees (MeshingVoronoiMesher.cpp:100-174, 496-571, 876-967).  The arrays of the corner and sizing trees have `num_surface_spheres` entries (929-930, 952-953). -/
noncomputable def featureTrees (F : Features) : Option FeatureTrees :=
  match guardedTree F.surface.length F.surface, guardedTree F.edges.length F.edges, guardedTree F.surface.length F.corners, guardedTree F.surface.length F.sizing with
  | some s, some e, some c, some z => some ⟨s, e, c, z⟩
  | _, _, _, _ => none

/-- `get_closest_tree_point` followed by `old_index[iclosest]` and the record there. -/
noncomputable def closestRec (T : MTree) (xs : List SeedRec) (x : Nat → ℝ) : Option (SeedRec × Nat × ℝ) :=
  match closestQuery Rounding.exact T.P T.ln (fun _ => true) x true ⊤ with
  | some (c, some d) =>
    match T.old c with
    | none => none
    | some o =>
      match xs[o]? with
      | none => none
      | some s => if c < T.P.num then some (s, o, d) else none
  | _ => none

/-- `old_index[...]` of a list of tree points. -/
def oldIndices (T : MTree) : List Nat → Option (List Nat)
  | [] => some []
  | i :: is =>
    match (if i < T.P.num then T.old i else none), oldIndices T is with
    | some o, some os => some (o :: os)
    | _, _ => none

/-- `get_tree_points_in_sphere`, with old indices. -/
noncomputable def nearRecs (T : MTree) (x : Nat → ℝ) (R : ℝ) : Option (List Nat) :=
  match sphereQuery Rounding.exact T.P T.ln (fun _ => true) (inSphereTest R) x R with
  | none => none
  | some l => oldIndices T l

/-! ## Imposed seeds -/

/-- Whether `x` is outside one family of spheres (MeshingVoronoiMesher.cpp:620-663, 666-709, 712-755). -/
noncomputable def outsideAll (T : Option MTree) (xs : List SeedRec) (L : ℝ) (x : Nat → ℝ) : Option Bool :=
  match T with
  | none => some true
  | some T =>
    match closestRec T xs x with
    | none => none
    | some (s, _, d) =>
      match nearRecs T x ((s.size + L * d) / (1 - L)) with
      | none => none
      | some l => some (l.all fun i => match xs[i]? with | none => false | some q => !decide (distance 3 x q.x < q.size - 1e-10))

/-- One iteration of the loop over the imposed seeds (MeshingVoronoiMesher.cpp:583-764): `some none` is a rejected seed, otherwise its region. -/
noncomputable def imposeOne (T : MTree) (seeds : List SeedRec) (FT : FeatureTrees) (F : Features) (L : ℝ) (x : Nat → ℝ) : Option (Option Nat) :=
  match closestRec T seeds x with
  | none => none
  | some (s, _, _) =>
    if s.region = 0 then some none
    else
      match outsideAll FT.surface F.surface L x with
      | none => none
      | some false => some none
      | some true =>
        match outsideAll FT.edges F.edges L x with
        | none => none
        | some false => some none
        | some true =>
          match outsideAll FT.corners F.corners L x with
          | none => none
          | some false => some none
          | some true => some (some s.region)

/-- All iterations: `valid_seed` and `imposed_seed_region_id`; the imposed seed is `(x, x[3])`. -/
noncomputable def imposeFlags (T : MTree) (seeds : List SeedRec) (FT : FeatureTrees) (F : Features) (L : ℝ) : List (Nat → ℝ) → Option (List (Option Nat))
  | [] => some []
  | x :: xs =>
    match imposeOne T seeds FT F L x, imposeFlags T seeds FT F L xs with
    | some v, some vs => some (v :: vs)
    | _, _ => none

/-- A shared counter: its value, the value each thread has loaded but not yet stored, and the increments each thread has still to start. -/
structure Counter where
  val : Nat
  reg : Nat → Option Nat
  todo : Nat → Nat

/-- `num_valid_seeds++` without `atomic` (MeshingVoronoiMesher.cpp:763, in the `parallel for` 580-582): a load and a store. -/
def counterStep (t : Nat) (s : Counter) : Counter :=
  match s.reg t with
  | some v => { s with val := v + 1, reg := upd s.reg t none }
  | none => if 0 < s.todo t then { s with reg := upd s.reg t (some s.val), todo := upd s.todo t (s.todo t - 1) } else s

/-- A schedule: which thread makes the next step. -/
def runCounter : List Nat → Counter → Counter
  | [], s => s
  | t :: ts, s => runCounter ts (counterStep t s)

/-- An array of `cap` seed records; a cell never written is `none`. -/
structure SeedBuf where
  cap : Nat
  cell : Nat → Option SeedRec

/-- `new double[n * 3]` and its companions. -/
def SeedBuf.new (n : Nat) : SeedBuf := ⟨n, fun _ => none⟩

/-- A bounds-checked write. -/
def SeedBuf.put (b : SeedBuf) (i : Nat) (r : SeedRec) : Option SeedBuf := if i < b.cap then some ⟨b.cap, upd b.cell i (some r)⟩ else none

/-- `for i: new_seeds[off + i] = old[i]` (MeshingVoronoiMesher.cpp:776-778, 1519-1528). -/
def copyInto : List SeedRec → Nat → SeedBuf → Option SeedBuf
  | [], _, b => some b
  | r :: rs, i, b =>
    match b.put i r with
    | none => none
    | some b => copyInto rs (i + 1) b

/-- The first `n` entries of an array; reading an unwritten cell is undefined. -/
def SeedBuf.take (b : SeedBuf) : Nat → Option (List SeedRec)
  | 0 => some []
  | n + 1 =>
    match b.take n, (if n < b.cap then b.cell n else none) with
    | some l, some r => some (l ++ [r])
    | _, _ => none

/-- The accepted seeds are appended, `num_valid_seeds` counting again from 0 (MeshingVoronoiMesher.cpp:780-799). -/
def appendImposed (n : Nat) : List ((Nat → ℝ) × Option Nat) → Nat → SeedBuf → Option (SeedBuf × Nat)
  | [], k, b => some (b, k)
  | (_, none) :: l, k, b => appendImposed n l k b
  | (x, some q) :: l, k, b =>
    match b.put (n + k) ⟨x, x 3, q⟩ with
    | none => none
    | some b => appendImposed n l (k + 1) b

/-- The part after the parallel loop (MeshingVoronoiMesher.cpp:771-805); `count` is the final value of `num_valid_seeds`. -/
def addImposed (seeds : List SeedRec) (imposed : List ((Nat → ℝ) × Option Nat)) (count : Nat) : Option (List SeedRec) :=
  if 0 < count then
    match copyInto seeds 0 (SeedBuf.new (seeds.length + count)) with
    | none => none
    | some b =>
      match appendImposed seeds.length imposed 0 b with
      | none => none
      | some (b, k) => b.take (seeds.length + k)
  else some seeds

/-- The number of accepted seeds. -/
def acceptedCount (vs : List (Option Nat)) : Nat := (vs.filter Option.isSome).length

/-- `impose_interior_seeds` (MeshingVoronoiMesher.cpp:449-836).  `split` says how many accepted seeds fall to each thread, `sched` is the schedule of their
increments; iterations do not influence each other otherwise. -/
noncomputable def imposeSeeds (seeds : List SeedRec) (F : Features) (L : ℝ) (imposed : List (Nat → ℝ)) (split : Nat → Nat) (sched : List Nat) : Option (List SeedRec) :=
  match meshTree seeds.length seeds, featureTrees F with
  | some T, some FT =>
    match imposeFlags T seeds FT F L imposed with
    | none => none
    | some vs => addImposed seeds (imposed.zip vs) (runCounter sched ⟨0, fun _ => none, split⟩).val
  | _, _ => none

/-! ## Lipschitz condition of the mesher -/

/-- The state of the parallel neighbour search: the shared point `x`, the lists found, and for each thread its remaining iterations and whether it has just written `x`. -/
structure NbrState where
  x : Nat → ℝ
  nbr : Nat → Option (List Nat)
  todo : Nat → List Nat
  wrote : Nat → Bool

/-- One step of a thread (MeshingVoronoiMesher.cpp:3082-3090): write the point of iteration `i` into the shared array `x`, or search around `x`. -/
noncomputable def nbrStep (P : PointStore ℝ) (ln : Links) (sz : Nat → ℝ) (t : Nat) (s : NbrState) : NbrState :=
  match s.todo t with
  | [] => s
  | i :: is =>
    if s.wrote t then
      { s with nbr := upd s.nbr i (sphereQuery Rounding.exact P ln (fun _ => true) (inSphereTest (2 * sz i)) s.x (2 * sz i)), todo := upd s.todo t is, wrote := upd s.wrote t false }
    else { s with x := P.pts i, wrote := upd s.wrote t true }

/-- A schedule. -/
noncomputable def runNbr (P : PointStore ℝ) (ln : Links) (sz : Nat → ℝ) : List Nat → NbrState → NbrState
  | [], s => s
  | t :: ts, s => runNbr P ln sz ts (nbrStep P ln sz t s)

/-- One pair of a sweep (MeshingVoronoiMesher.cpp:3101-3117). -/
noncomputable def meshLipPair (P : PointStore ℝ) (L : ℝ) (i j : Nat) (s : (Nat → ℝ) × Bool) : (Nat → ℝ) × Bool :=
  if s.1 j > s.1 i then s
  else
    let rLip := s.1 j + distance 3 (P.pts i) (P.pts j) * L
    if s.1 i > rLip + 1e-10 then (upd s.1 i rLip, false) else s

/-- The neighbours of one point (MeshingVoronoiMesher.cpp:3098-3118). -/
noncomputable def meshLipNbrs (P : PointStore ℝ) (L : ℝ) (i : Nat) : List Nat → (Nat → ℝ) × Bool → (Nat → ℝ) × Bool
  | [], s => s
  | j :: js, s => meshLipNbrs P L i js (meshLipPair P L i j s)

/-- One sweep (MeshingVoronoiMesher.cpp:3095-3119): an unwritten neighbour list is undefined behaviour. -/
noncomputable def meshLipSweep (P : PointStore ℝ) (L : ℝ) (nbr : Nat → Option (List Nat)) : List Nat → (Nat → ℝ) × Bool → Option ((Nat → ℝ) × Bool)
  | [], s => some s
  | i :: is, s =>
    match nbr i with
    | none => none
    | some l => if l.all fun j => decide (j < P.num) then meshLipSweep P L nbr is (meshLipNbrs P L i l s) else none

/-- The sweeps (MeshingVoronoiMesher.cpp:3092-3121). -/
noncomputable def meshLipLoop (P : PointStore ℝ) (L : ℝ) (nbr : Nat → Option (List Nat)) : Nat → (Nat → ℝ) → Option (Nat → ℝ)
  | 0, _ => none
  | fuel + 1, sz =>
    match meshLipSweep P L nbr (List.range P.num) (sz, true) with
    | none => none
    | some (sz', done) => if done then some sz' else meshLipLoop P L nbr fuel sz'

/-- The neighbour lists of a schedule in which no iteration is interrupted. -/
noncomputable def nbrLists (P : PointStore ℝ) (ln : Links) (sz : Nat → ℝ) : Nat → Option (List Nat) := fun i =>
  sphereQuery Rounding.exact P ln (fun _ => true) (inSphereTest (2 * sz i)) (P.pts i) (2 * sz i)

/-- `impose_lipschitz_continuity` on the re-enumerated points and back (MeshingVoronoiMesher.cpp:865-872, 1594-1608): `seed_sizing_sorted[i] = seeds_sizing[old_index[i]]`. -/
noncomputable def sortedSizes (T : MTree) (xs : List SeedRec) : Nat → ℝ := fun i =>
  match T.old i with
  | none => 0
  | some o => match xs[o]? with | none => 0 | some s => s.size

/-- `seeds_sizing[old_index[i]] = seed_sizing_sorted[i]` for one `i`. -/
def putSize (T : MTree) (sz : Nat → ℝ) (i : Nat) (xs : List SeedRec) : Option (List SeedRec) :=
  match T.old i with
  | none => none
  | some o =>
    match xs[o]? with
    | none => none
    | some s => some (xs.set o { s with size := sz i })

/-- The copy back. -/
def putSizes (T : MTree) (sz : Nat → ℝ) : Nat → List SeedRec → Option (List SeedRec)
  | 0, xs => some xs
  | n + 1, xs =>
    match putSizes T sz n xs with
    | none => none
    | some xs => putSize T sz n xs

/-- The pass on a list of seeds, one thread. -/
noncomputable def lipschitzSeeds (L : ℝ) (fuel : Nat) (T : MTree) (xs : List SeedRec) : Option (List SeedRec) :=
  let sz := sortedSizes T xs
  match meshLipLoop T.P L (nbrLists T.P T.ln sz) fuel sz with
  | none => none
  | some sz' => putSizes T sz' xs.length xs

/-! ## Shuffles -/

/-- `j = size_t(u * n); if (j == n) j--;` (MeshingVoronoiMesher.cpp:1000-1001, MeshingVoroCrust.cpp:590-592); `ρ` rounds the product. -/
noncomputable def pickIndex (ρ : ℝ → ℝ) (u : ℝ) (n : Nat) : Nat := if ⌊ρ (u * n)⌋₊ = n then ⌊ρ (u * n)⌋₊ - 1 else ⌊ρ (u * n)⌋₊

/-- `for (i = s; i < n; i++) swap(a[i], a[s + pick])` (MeshingVoronoiMesher.cpp:997-1006, MeshingVoroCrust.cpp:588-596), exchanges bounds checked; one draw per step. -/
noncomputable def shuffleFrom {α : Type} (ρ : ℝ → ℝ) (s n : Nat) : Nat → List ℝ → (Nat → α) → Option (Nat → α)
  | _, [], a => some a
  | i, u :: us, a =>
    let j := s + pickIndex ρ u (n - s)
    if i < n ∧ j < n then shuffleFrom ρ s n (i + 1) us (swapAt a i j) else none

/-- The monitoring points (MeshingVoroCrust.cpp:576-607): shuffle the indices of the seeds after the first `s`, and take the first 100 of them. -/
noncomputable def monitoringPoints (ρ : ℝ → ℝ) (s : Nat) (seeds : List SeedRec) (us : List ℝ) : Option (List SeedRec) :=
  if us.length ≠ seeds.length - s ∨ seeds.length < s then none
  else
    match shuffleFrom ρ s seeds.length s us (fun i => i) with
    | none => none
    | some a => ((List.range (min (seeds.length - s) 100)).map fun i => a (s + i)).mapM fun i => seeds[i]?

/-! ## Removing seeds near imposed seeds -/

/-- The state: `valid_seed`, `num_invalidated`, and the seeds with their sizes. -/
structure Culling where
  valid : Nat → Bool
  removed : Nat
  seeds : List SeedRec

/-- Invalidate the seeds of a list that are not protected (MeshingVoroCrust.cpp:481-490). -/
def cullList (n prot : Nat) : List Nat → Culling → Option Culling
  | [], s => some s
  | i :: is, s =>
    if i < n then cullList n prot is (if s.valid i = true ∧ prot ≤ i then { s with valid := upd s.valid i false, removed := s.removed + 1 } else s) else none

/-- One imposed seed (MeshingVoroCrust.cpp:467-493). -/
noncomputable def cullOne (P : PointStore ℝ) (ln : Links) (prot : Nat) (x : Nat → ℝ) (s : Culling) : Option Culling :=
  match closestQuery Rounding.exact P ln (fun _ => true) x false ⊤ with
  | some (c, some h) =>
    if h < 1e-10 then
      match sphereQuery Rounding.exact P ln (fun _ => true) (inSphereTest (x 3)) x (x 3) with
      | none => none
      | some l =>
        match cullList P.num prot l s with
        | none => none
        | some s =>
          match s.seeds[c]? with
          | none => none
          | some q => some { s with seeds := s.seeds.set c { q with size := x 3 } }
    else some s
  | _ => none

/-- All imposed seeds (MeshingVoroCrust.cpp:465-494). -/
noncomputable def cullAll (P : PointStore ℝ) (ln : Links) (prot : Nat) : List (Nat → ℝ) → Culling → Option Culling
  | [], s => some s
  | x :: xs, s =>
    match cullOne P ln prot x s with
    | none => none
    | some s => cullAll P ln prot xs s

/-- The copy loop (MeshingVoroCrust.cpp:525-533). -/
def compactSeeds (valid : Nat → Bool) : List SeedRec → Nat → Nat → SeedBuf → Option (SeedBuf × Nat)
  | [], _, k, b => some (b, k)
  | r :: rs, i, k, b =>
    if valid i then
      match b.put k r with
      | none => none
      | some b => compactSeeds valid rs (i + 1) (k + 1) b
    else compactSeeds valid rs (i + 1) k b

/-- MeshingVoroCrust.cpp:519-538. -/
def removeCulled (s : Culling) : Option (List SeedRec) :=
  if 0 < s.removed then
    if s.removed ≤ s.seeds.length then
      match compactSeeds s.valid s.seeds 0 0 (SeedBuf.new (s.seeds.length - s.removed)) with
      | none => none
      | some (b, _) => b.take (s.seeds.length - s.removed)
    else none
  else some s.seeds

/-- The monitoring points that are not seeds move to the closest seed (MeshingVoroCrust.cpp:496-516): point and size. -/
noncomputable def snapImposed (P : PointStore ℝ) (ln : Links) (seeds : List SeedRec) (x : Nat → ℝ) : Option (Nat → ℝ) :=
  match closestQuery Rounding.exact P ln (fun _ => true) x false ⊤ with
  | some (c, some h) =>
    if h < 1e-10 then some x
    else
      match seeds[c]? with
      | none => none
      | some q => some fun d => if d = 3 then q.size else q.x d
  | _ => none

/-- `MeshingVoroCrust::generate_interior_seeds`, the part for imposed monitoring points (MeshingVoroCrust.cpp:444-550): the seeds left and the points written to
`monitoring_points_closest_seeds.csv`. -/
noncomputable def imposeMonitoring (prot : Nat) (seeds : List SeedRec) (imposed : List (Nat → ℝ)) : Option (List SeedRec × List (Nat → ℝ)) :=
  match buildBalanced (recStore seeds) false with
  | none => none
  | some ln =>
    match cullAll (recStore seeds) ln prot imposed ⟨fun _ => true, 0, seeds⟩ with
    | none => none
    | some s =>
      match imposed.mapM (snapImposed (recStore seeds) ln s.seeds), removeCulled s with
      | some ps, some out => some (out, ps)
      | _, _ => none

end VoroCrust
