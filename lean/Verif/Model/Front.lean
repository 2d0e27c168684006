import Verif.Model.Interior

/-!
# Model of the advancing front of interior seeds

`MeshingVoronoiMesher::generate_interior_seeds` (MeshingVoronoiMesher.cpp:839-1618).  Exact real arithmetic.

Simplifications: the random numbers of a round are given as functions (`RoundInput`), so all outcomes and all assignments of iterations to threads are covered; the
iterations of the parallel loop share only data that none of them writes; sums of squares are `distance` squared or `euclid`-like sums written out in `distSq3`; files and timings are left out.
-/

namespace VoroCrust

open Classical

/-- The sum of squares computed in place (MeshingVoronoiMesher.cpp:1046-1052, 1306-1310, 1315-1320). -/
def distSq3 (x y : Nat → ℝ) : ℝ := (x 0 - y 0) * (x 0 - y 0) + (x 1 - y 1) * (x 1 - y 1) + (x 2 - y 2) * (x 2 - y 2)

/-! ## Activation -/

/-- The test of two front seeds (MeshingVoronoiMesher.cpp:1046-1054). -/
noncomputable def frontConflict (L : ℝ) (a b : SeedRec) : Bool := decide (Real.sqrt (distSq3 a.x b.x) < (3 + 2 * L) * (a.size + b.size) - 1e-10)

/-- The loop over `i` (MeshingVoronoiMesher.cpp:1036-1066), `k` iterations left; the inner loop stops before `i - 1`. -/
noncomputable def activateFrom (L : ℝ) (cap : Nat) (fs : Nat → SeedRec) : Nat → Nat → (Nat → Bool) → Nat → (Nat → Bool)
  | 0, _, act, _ => act
  | k + 1, i, act, good =>
    if (List.range (i - 1)).any (fun j => act j && frontConflict L (fs i) (fs j)) then activateFrom L cap fs k (i + 1) act good
    else if good + 1 = cap then upd act i true
    else activateFrom L cap fs k (i + 1) (upd act i true) (good + 1)

/-- `is_active_seed` (MeshingVoronoiMesher.cpp:1032-1066); an empty front is written out of bounds. -/
noncomputable def activate (L : ℝ) (cap n : Nat) (fs : Nat → SeedRec) : Option (Nat → Bool) :=
  if n = 0 then none else some (activateFrom L cap fs (n - 1) 1 (upd (fun _ => false) 0 true) 1)

/-! ## Darts -/

/-- The update of `closest_dst_sq` and `closest_seed` (MeshingVoronoiMesher.cpp:1322-1327). -/
noncomputable def scanClosest (tag : Option Nat) (h : ℝ) (c : Nat) (d : ℝ) : Nat × ℝ :=
  match tag with
  | some k => if h < d then (k, h) else (c, d)
  | none => (c, d)

/-- Scan of the spheres around the active seed (MeshingVoronoiMesher.cpp:1312-1334): a seed or interior sphere has its index, a feature sphere `none`.
The result is `good_dart`, `closest_seed` and `closest_dst_sq`. -/
noncomputable def scanSpheres (dart : Nat → ℝ) : List (Option Nat × SeedRec) → Nat → ℝ → Bool × Nat × ℝ
  | [], c, d => (true, c, d)
  | (tag, q) :: qs, c, d =>
    let h := distSq3 dart q.x
    let cd := scanClosest tag h c d
    if h < q.size * q.size then (false, cd.1, cd.2) else scanSpheres dart qs cd.1 cd.2

/-- A seed or interior sphere by its common index (MeshingVoronoiMesher.cpp:1019-1033, 1103-1118). -/
def frontSphere (seeds interior : List SeedRec) (i : Nat) : Option SeedRec := if i < seeds.length then seeds[i]? else interior[i - seeds.length]?

/-- The upper bound of the sizing function at a dart (MeshingVoronoiMesher.cpp:1371-1379). -/
noncomputable def sizingBound (T : Option MTree) (sizing : List SeedRec) (dart : Nat → ℝ) (sz : ℝ) : Option ℝ :=
  match T with
  | none => some sz
  | some T =>
    match closestRec T sizing dart with
    | none => none
    | some (s, _, _) => some (min sz s.size)

/-- One dart (MeshingVoronoiMesher.cpp:1291-1383): `none` is undefined behaviour, `some none` a rejected dart. -/
noncomputable def throwDart (F : Features) (FT : FeatureTrees) (L rmax : ℝ) (seeds interior : List SeedRec) (idx : Nat) (s : SeedRec) (nb : List (Option Nat × SeedRec)) (new : List SeedRec)
    (dir : Nat → ℝ) (u : ℝ) : Option (Option SeedRec) :=
  let dart : Nat → ℝ := fun d => s.x d + u * s.size * dir d
  let r := scanSpheres dart nb idx (distSq3 dart s.x)
  match frontSphere seeds interior r.2.1 with
  | none => none
  | some c =>
    if r.1 = true ∧ (new.all fun q => !decide (distSq3 dart q.x < q.size * q.size)) = true ∧ s.region = c.region then
      match sizingBound FT.sizing F.sizing dart (min (c.size + L * Real.sqrt r.2.2) rmax) with
      | none => none
      | some sz => some (some ⟨dart, sz, s.region⟩)
    else some none

/-- The darts of one active seed (MeshingVoronoiMesher.cpp:1285-1384). -/
noncomputable def throwDarts (F : Features) (FT : FeatureTrees) (L rmax : ℝ) (seeds interior : List SeedRec) (idx : Nat) (s : SeedRec) (nb : List (Option Nat × SeedRec)) :
    List ((Nat → ℝ) × ℝ) → List SeedRec → Option (List SeedRec)
  | [], new => some new
  | (dir, u) :: ds, new =>
    match throwDart F FT L rmax seeds interior idx s nb new dir u with
    | none => none
    | some none => throwDarts F FT L rmax seeds interior idx s nb ds new
    | some (some p) => throwDarts F FT L rmax seeds interior idx s nb ds (new ++ [p])

/-! ## Neighbours -/

/-- The records of a list of indices. -/
def recsAt (xs : List SeedRec) : List Nat → Option (List (Nat × SeedRec))
  | [] => some []
  | i :: is =>
    match xs[i]?, recsAt xs is with
    | some s, some l => some ((i, s) :: l)
    | _, _ => none

/-- The neighbouring spheres of one family of features (MeshingVoronoiMesher.cpp:1160-1178, 1182-1200, 1204-1222). -/
noncomputable def featureNear (T : Option MTree) (xs : List SeedRec) (L r : ℝ) (x : Nat → ℝ) : Option (List (Nat × SeedRec)) :=
  match T with
  | none => some []
  | some T =>
    match closestRec T xs x with
    | none => none
    | some (c, _, h) =>
      match nearRecs T x (2 * r + (c.size + L * h + 2 * r * L) / (1 - L)) with
      | none => none
      | some l => recsAt xs l

/-- The neighbouring interior spheres, with their common index (MeshingVoronoiMesher.cpp:1126-1157). -/
noncomputable def interiorNear (n : Nat) (R : ℝ) (x : Nat → ℝ) : List SeedRec → Nat → List (Nat × SeedRec)
  | [], _ => []
  | q :: qs, i => if Real.sqrt (distSq3 q.x x) > R then interiorNear n R x qs (i + 1) else (n + i, q) :: interiorNear n R x qs (i + 1)

/-- The array `spheres` of one active seed (MeshingVoronoiMesher.cpp:1120-1281). -/
noncomputable def dartSpheres (F : Features) (FT : FeatureTrees) (L : ℝ) (T : MTree) (seeds interior : List SeedRec) (s : SeedRec) : Option (List (Option Nat × SeedRec)) :=
  match nearRecs T s.x (3 / (1 - L) * s.size), featureNear FT.surface F.surface L s.size s.x, featureNear FT.edges F.edges L s.size s.x, featureNear FT.corners F.corners L s.size s.x with
  | some l, some a, some b, some c =>
    match recsAt seeds l with
    | none => none
    | some near =>
      some ((near ++ interiorNear seeds.length (3 / (1 - L) * s.size) s.x interior 0).map (fun p => (some p.1, p.2)) ++ (a ++ b ++ c).map fun p => (none, p.2))
  | _, _, _, _ => none

/-! ## A round -/

/-- The seeds with their tree, the interior spheres not yet among them, the front, and the number of seeds at the last Lipschitz pass. -/
structure FrontState where
  seeds : List SeedRec
  tree : MTree
  interior : List SeedRec
  front : List Nat
  numLip : Nat

/-- The random numbers of a round: draws of the shuffle, and direction and radius factor of each dart of each active seed. -/
structure RoundInput where
  draw : Nat → ℝ
  dir : Nat → Nat → Nat → ℝ
  fac : Nat → Nat → ℝ

/-- The new spheres of the active seeds (MeshingVoronoiMesher.cpp:1089-1390), `k` is the number of the first one. -/
noncomputable def newSpheres (F : Features) (FT : FeatureTrees) (L rmax : ℝ) (T : MTree) (seeds interior : List SeedRec) (inp : RoundInput) : List Nat → Nat → Option (List (List SeedRec))
  | [], _ => some []
  | i :: is, k =>
    match frontSphere seeds interior i with
    | none => none
    | some s =>
      match dartSpheres F FT L T seeds interior s with
      | none => none
      | some nb =>
        match throwDarts F FT L rmax seeds interior i s nb ((List.range 20).map fun d => (inp.dir k d, inp.fac k d)) [], newSpheres F FT L rmax T seeds interior inp is (k + 1) with
        | some new, some rest => some (new :: rest)
        | _, _ => none

/-- The spheres of the front (MeshingVoronoiMesher.cpp:1014-1034). -/
def frontRecs (seeds interior : List SeedRec) : List Nat → Option (List SeedRec)
  | [] => some []
  | i :: is =>
    match frontSphere seeds interior i, frontRecs seeds interior is with
    | some s, some l => some (s :: l)
    | _, _ => none

/-- The randomised front (MeshingVoronoiMesher.cpp:997-1007). -/
noncomputable def shuffledFront (ρ : ℝ → ℝ) (draw : Nat → ℝ) (front : List Nat) : Option (List Nat) :=
  match shuffleFrom ρ 0 front.length 0 ((List.range front.length).map draw) (fun i => front.getD i 0) with
  | none => none
  | some a => some ((List.range front.length).map a)

/-- The lists of active and of inactive front seeds (MeshingVoronoiMesher.cpp:1078-1092). -/
def splitFront (act : Nat → Bool) : List Nat → Nat → List Nat × List Nat
  | [], _ => ([], [])
  | s :: ss, i => let r := splitFront act ss (i + 1); if act i then (s :: r.1, r.2) else (r.1, s :: r.2)

/-- New arrays for seeds, interior spheres and new spheres, with the tree (MeshingVoronoiMesher.cpp:1402-1436, 1497-1543). -/
noncomputable def mergeSeeds (seeds extra : List SeedRec) : Option (List SeedRec × MTree) :=
  match copyInto seeds 0 (SeedBuf.new (seeds.length + extra.length)) with
  | none => none
  | some b =>
    match copyInto extra seeds.length b with
    | none => none
    | some b =>
      match b.take (seeds.length + extra.length) with
      | none => none
      | some all =>
        match meshTree all.length all with
        | none => none
        | some T => some (all, T)

/-- The end of a round (MeshingVoronoiMesher.cpp:1394-1560): the next state, and whether the loop ends. -/
noncomputable def endRound (L : ℝ) (lipFuel cap : Nat) (s : FrontState) (inactive : List Nat) (new : List SeedRec) : Option (FrontState × Bool) :=
  if new.length = 0 ∧ inactive.length = 0 then
    if 0 < s.interior.length then
      match mergeSeeds s.seeds s.interior with
      | none => none
      | some (all, T) => some ({ s with seeds := all, tree := T, interior := [], front := [] }, true)
    else some ({ s with front := [] }, true)
  else if new.length = 0 then some ({ s with front := inactive }, false)
  else
    let front := inactive ++ (List.range new.length).map fun i => s.seeds.length + s.interior.length + i
    if s.interior.length + new.length < cap then some ({ s with interior := s.interior ++ new, front := front }, false)
    else
      match mergeSeeds s.seeds (s.interior ++ new) with
      | none => none
      | some (all, T) =>
        if all.length > 2 * s.numLip then
          match lipschitzSeeds L lipFuel T all with
          | none => none
          | some all => some ({ seeds := all, tree := T, interior := [], front := front, numLip := all.length }, false)
        else some ({ seeds := all, tree := T, interior := [], front := front, numLip := s.numLip }, false)

/-- One round of `while (true)` (MeshingVoronoiMesher.cpp:995-1561). -/
noncomputable def frontRound (ρ : ℝ → ℝ) (F : Features) (FT : FeatureTrees) (L rmax : ℝ) (lipFuel threads : Nat) (inp : RoundInput) (s : FrontState) : Option (FrontState × Bool) :=
  match shuffledFront ρ inp.draw s.front with
  | none => none
  | some front =>
    match frontRecs s.seeds s.interior front with
    | none => none
    | some fs =>
      match activate L (100 * threads) fs.length (fun i => fs.getD i ⟨fun _ => 0, 0, 0⟩) with
      | none => none
      | some act =>
        let sp := splitFront act front 0
        match newSpheres F FT L rmax s.tree s.seeds s.interior inp sp.1 0 with
        | none => none
        | some new => endRound L lipFuel (1000 * threads) s sp.2 new.flatten

/-- Rounds until the loop ends, or the given random numbers are used up. -/
noncomputable def frontRounds (ρ : ℝ → ℝ) (F : Features) (FT : FeatureTrees) (L rmax : ℝ) (lipFuel threads : Nat) : List RoundInput → FrontState → Option (FrontState × Bool)
  | [], s => some (s, false)
  | i :: is, s =>
    match frontRound ρ F FT L rmax lipFuel threads i s with
    | none => none
    | some (s, true) => some (s, true)
    | some (s, false) => frontRounds ρ F FT L rmax lipFuel threads is s

/-- The indices of the seeds that are not outside (MeshingVoronoiMesher.cpp:968-981). -/
def startFront : List SeedRec → Nat → List Nat
  | [], _ => []
  | s :: ss, i => if s.region = 0 then startFront ss (i + 1) else i :: startFront ss (i + 1)

/-- `generate_interior_seeds`: the seeds when the loop has ended, `some none` when the given rounds do not suffice. -/
noncomputable def generateInterior (ρ : ℝ → ℝ) (F : Features) (L rmax : ℝ) (lipFuel threads : Nat) (inputs : List RoundInput) (seeds : List SeedRec) : Option (Option (List SeedRec)) :=
  match meshTree seeds.length seeds, featureTrees F with
  | some T, some FT =>
    match lipschitzSeeds L lipFuel T seeds with
    | none => none
    | some seeds =>
      match frontRounds ρ F FT L rmax lipFuel threads inputs ⟨seeds, T, [], startFront seeds 0, seeds.length⟩ with
      | none => none
      | some (_, false) => some none
      | some (s, true) => (lipschitzSeeds L lipFuel s.tree s.seeds).map some
  | _, _ => none

end VoroCrust
