import Verif.Model.PowerVertex

/-! # Model of `MeshingVoroCrustSampler::generate_surface_seeds`

Exact real arithmetic.  The random directions used by the power vertex and the re-balancing policy of the trees are parameters.
-/

namespace VoroCrust

open Classical

/-- The three sphere trees. -/
structure SphereSet where
  S : PointStore ℝ
  lnS : Links
  E : PointStore ℝ
  lnE : Links
  C : PointStore ℝ
  lnC : Links

/-- `get_tree_point` for an index of the three trees one after the other (MeshingVoroCrustSampler.cpp:3208-3213, 3227-3232). -/
def SphereSet.at (Z : SphereSet) (i : Nat) : Nat → ℝ :=
  if i < Z.S.num then Z.S.pts i else if i < Z.S.num + Z.E.num then Z.E.pts (i - Z.S.num) else Z.C.pts (i - Z.S.num - Z.E.num)

/-- The spheres overlapping surface sphere `i` (MeshingVoroCrustSampler.cpp:3160-3180). -/
noncomputable def nearSpheres (Z : SphereSet) (L : ℝ) (i : Nat) : Option (List Nat) :=
  match overlappingSpheres Z.S Z.lnS L (Z.S.pts i) (Z.S.pts i 3), overlappingSpheres Z.E Z.lnE L (Z.S.pts i) (Z.S.pts i 3),
    overlappingSpheres Z.C Z.lnC L (Z.S.pts i) (Z.S.pts i 3) with
  | some s, some e, some c => some (s ++ e.map (· + Z.S.num) ++ c.map (· + Z.S.num + Z.E.num))
  | _, _, _ => none

/-- `dst > r_i + r_j - 1E-10` fails (MeshingVoroCrustSampler.cpp:3215-3217, 3234-3238). -/
def meets (x y : Nat → ℝ) : Prop := ¬ distance 3 x y > x 3 + y 3 - 1e-10

/-- The two inner loops up to the overlap tests (MeshingVoroCrustSampler.cpp:3202-3238): the triples of sphere `i` in the order they are treated. -/
noncomputable def seedTriples (Z : SphereSet) (i : Nat) (near : List Nat) : List (Nat × Nat × Nat) :=
  near.flatMap fun j =>
    if j ≤ i then [] else if ¬ meets (Z.at i) (Z.at j) then [] else
      near.filterMap fun k =>
        if k ≤ i then none else if k ≤ j then none else if ¬ meets (Z.at i) (Z.at k) then none else if ¬ meets (Z.at j) (Z.at k) then none else some (i, j, k)

/-- First three coordinates. -/
def toV3 (x : Nat → ℝ) : V3 := fun d => x d.val

/-- `get_3d_triangle_area` (MeshingGeometricalMethods.cpp:300-316). -/
noncomputable def triArea (c : Fin 3 → V3) : ℝ :=
  let n := cross3 (fun d => c 1 d - c 0 d) (fun d => c 2 d - c 0 d)
  0.5 * Real.sqrt (n 0 * n 0 + n 1 * n 1 + n 2 * n 2)

/-- Centres of a triple as corners of a triangle. -/
def centreTri (a b c : Nat → ℝ) : Fin 3 → V3 := ![toV3 a, toV3 b, toV3 c]

/-- `triplet_normal` after the adjustment and whether it was reversed (MeshingVoroCrustSampler.cpp:3256-3287); `f` are the corners of the face of sphere `i`. -/
noncomputable def seedNormal (a b c : Nat → ℝ) (f : Fin 3 → V3) : V3 × Bool :=
  let n := (triNormal (centreTri a b c)).1
  if dot3 (triNormal f).1 n < 0 then (fun d => -n d, true) else (n, false)

/-- The three coordinates of a seed (MeshingVoroCrustSampler.cpp:3289-3293) followed by the smallest radius (3392-3393, 3400-3401). -/
noncomputable def seedAt (pv : Nat → ℝ) (v : ℝ) (n : V3) (r : ℝ) : Nat → ℝ :=
  fun d => if h : d < 3 then pv d + v * n ⟨d, h⟩ else r

/-- `point_covered` with exclusions (MeshingPolyMesh.cpp:1010-1050) for `alpha_coverage = 0`: the entries appended. -/
noncomputable def coverList (P : PointStore ℝ) (ln : Links) (L : ℝ) (x : Nat → ℝ) (si sj sk : Nat) : Option (List Nat) :=
  if P.num = 0 then some []
  else
    match closestSphere P ln x with
    | none => none
    | some (c, d) =>
      match spheresNear P ln x ((radius P c + L * d) / (1 - L)) with
      | none => none
      | some l => some (l.filter fun s => !(s == si || s == sj || s == sk) && decide (distance 3 x (P.pts s) < Real.sqrt (1 - 0 * 0) * P.pts s 3 + 1e-10))

/-- Index in the surface tree, or its size (MeshingVoroCrustSampler.cpp:3298-3301). -/
def localS (Z : SphereSet) (i : Nat) : Nat := if i ≥ Z.S.num then Z.S.num else i

/-- Index in the edge tree, or its size (MeshingVoroCrustSampler.cpp:3305-3311). -/
def localE (Z : SphereSet) (i : Nat) : Nat := if i < Z.S.num ∨ i ≥ Z.S.num + Z.E.num then Z.E.num else i - Z.S.num

/-- Index in the corner tree, or its size (MeshingVoroCrustSampler.cpp:3318-3324). -/
def localC (Z : SphereSet) (i : Nat) : Nat := if i < Z.S.num + Z.E.num then Z.C.num else i - (Z.S.num + Z.E.num)

/-- `upper_covered`, `lower_covered` and `covering_spheres` (MeshingVoroCrustSampler.cpp:3295-3329). -/
noncomputable def coverPair (Z : SphereSet) (L : ℝ) (i j k : Nat) (u l : Nat → ℝ) : Option (Bool × Bool × List Nat) :=
  match coverList Z.S Z.lnS L u (localS Z i) (localS Z j) (localS Z k), coverList Z.S Z.lnS L l (localS Z i) (localS Z j) (localS Z k) with
  | some su, some sl =>
    match (if su = [] then coverList Z.E Z.lnE L u (localE Z i) (localE Z j) (localE Z k) else some []),
      (if sl = [] then coverList Z.E Z.lnE L l (localE Z i) (localE Z j) (localE Z k) else some []) with
    | some eu, some el =>
      match (if su = [] ∧ eu = [] then coverList Z.C Z.lnC L u (localC Z i) (localC Z j) (localC Z k) else some []),
        (if sl = [] ∧ el = [] then coverList Z.C Z.lnC L l (localC Z i) (localC Z j) (localC Z k) else some []) with
      | some cu, some cl =>
        some (!(su ++ eu ++ cu).isEmpty, !(sl ++ el ++ cl).isEmpty,
          su ++ sl ++ (eu ++ el).map (· + Z.S.num) ++ (cu ++ cl).map (· + Z.S.num + Z.E.num))
      | _, _ => none
    | _, _ => none
  | _, _ => none

/-- Attributes of a seed (MeshingVoroCrustSampler.cpp:3273-3287, 3395, 3403). -/
structure SeedAttr where
  pair : Nat
  s1 : Nat
  s2 : Nat
  s3 : Nat

/-- A seed tree with its attributes. -/
structure SeedTree where
  tree : SmartTree ℝ
  attr : List SeedAttr

/-- An empty tree (MeshingVoroCrustSampler.cpp:3118). -/
def SeedTree.empty : SeedTree := ⟨SmartTree.empty (fun _ _ => 0) id id, []⟩

/-- The index of a stored seed within `1E-10`, or the number of seeds (MeshingVoroCrustSampler.cpp:3381-3388); the query leaves `DBL_MAX` for an empty tree. -/
noncomputable def seedIndex (t : SeedTree) (x : Nat → ℝ) : Option Nat :=
  if t.tree.num = 0 then some 0
  else
    match closestQuery Rounding.exact { pts := t.tree.pts, num := t.tree.num, dim := 3, lt := realLt } t.tree.links (fun _ => true) x false ⊤ with
    | none => none
    | some (c, h) => some (if h < ((1e-10 : ℝ) : WithTop ℝ) then c else t.tree.num)

/-- `add_tree_point(4, seed, normal, attrib)`. -/
noncomputable def addSeed (rb : Nat → Nat → Bool) (t : SeedTree) (x : Nat → ℝ) (a : SeedAttr) : Option SeedTree :=
  (addTreePoint realLt 3 rb t.tree x).map fun t' => ⟨t', t.attr ++ [a]⟩

/-- Storing a pair (MeshingVoroCrustSampler.cpp:3376-3406). -/
noncomputable def addPair (rb : Nat → Nat → Bool) (up lo : SeedTree) (u l : Nat → ℝ) (s1 s2 s3 : Nat) : Option (SeedTree × SeedTree) :=
  match seedIndex lo l, seedIndex up u with
  | some il, some iu =>
    match (if il = lo.tree.num then addSeed rb lo l ⟨iu, s1, s2, s3⟩ else some lo),
      (if iu = up.tree.num then addSeed rb up u ⟨il, s1, s2, s3⟩ else some up) with
    | some lo', some up' => some (up', lo')
    | _, _ => none
  | _, _ => none

/-- `sliver_spheres` and `sliver_spheres_radii`: keep the smaller radius (MeshingVoroCrustSampler.cpp:3357-3370). -/
noncomputable def noteSliver (i : Nat) (r : ℝ) : List (Nat × ℝ) → List (Nat × ℝ)
  | [] => [(i, r)]
  | p :: ps => if p.1 ≠ i then p :: noteSliver i r ps else (p.1, if p.2 > r then r else p.2) :: ps

/-- State of the loops: contents of `c_ijk` (`none`: not written yet), number of calls of the power vertex, slivers, seeds. -/
structure SeedRun where
  c : Option (Nat → ℝ)
  calls : Nat
  slivers : List (Nat × ℝ)
  up : SeedTree
  lo : SeedTree

/-- Parameters of a run: the random directions of each call, the corners of the face of each surface sphere, the resolution of a sliver (`resolve_sliver`, C29) as a
function of the covering spheres: a position in this list and a radius, the re-balancing policy. -/
structure SeedEnv where
  dart : Nat → Nat → Nat → ℝ
  face : Nat → Fin 3 → V3
  resolve : List Nat → Nat × ℝ
  rb : Nat → Nat → Bool

/-- The body of the innermost loop for three overlapping spheres (MeshingVoroCrustSampler.cpp:3240-3410).  The return value of `get_power_vertex` is ignored: on failure
`c_ijk` keeps its old content. -/
noncomputable def seedTriple (Z : SphereSet) (L : ℝ) (env : SeedEnv) (t : Nat × Nat × Nat) (s : SeedRun) : Option SeedRun :=
  let a := Z.at t.1
  let b := Z.at t.2.1
  let c := Z.at t.2.2
  match powerVertexN 3 3 (fun i => if i = 0 then a else if i = 1 then b else c) (fun i => if i = 0 then a 3 else if i = 1 then b 3 else c 3) (env.dart s.calls) with
  | none => none
  | some o =>
    match (match o with
      | some pv => some pv
      | none => s.c) with
    | none => none
    | some pv =>
      let s := { s with c := some pv, calls := s.calls + 1 }
      let h := distance 3 pv a
      if h > a 3 - 1e-10 then some s
      else
        let v := Real.sqrt (a 3 * a 3 - h * h)
        if triArea (centreTri a b c) < 1e-10 then some s
        else
          let n := seedNormal a b c (env.face t.1)
          let r := min (min (a 3) (b 3)) (c 3)
          let u := seedAt pv v n.1 r
          let l := seedAt pv (-v) n.1 r
          match coverPair Z L t.1 t.2.1 t.2.2 u l with
          | none => none
          | some (cu, cl, cs) =>
            if cu ≠ cl then
              let cs := cs ++ [t.1, t.2.1, t.2.2]
              let q := env.resolve cs
              match cs[q.1]? with
              | none => some s
              | some sp => some { s with slivers := noteSliver sp q.2 s.slivers }
            else if s.slivers = [] ∧ cu = false ∧ cl = false then
              match addPair env.rb s.up s.lo u l t.1 (if n.2 then t.2.2 else t.2.1) (if n.2 then t.2.1 else t.2.2) with
              | none => none
              | some (up, lo) => some { s with up := up, lo := lo }
            else some s

/-- The triples of one sphere. -/
noncomputable def seedTripleLoop (Z : SphereSet) (L : ℝ) (env : SeedEnv) : List (Nat × Nat × Nat) → SeedRun → Option SeedRun
  | [], s => some s
  | t :: ts, s =>
    match seedTriple Z L env t s with
    | none => none
    | some s => seedTripleLoop Z L env ts s

/-- The loop over the surface spheres (MeshingVoroCrustSampler.cpp:3146-3418). -/
noncomputable def seedSphereLoop (Z : SphereSet) (L : ℝ) (env : SeedEnv) : List Nat → SeedRun → Option SeedRun
  | [], s => some s
  | i :: is, s =>
    match nearSpheres Z L i with
    | none => none
    | some near =>
      match seedTripleLoop Z L env (seedTriples Z i near) s with
      | none => none
      | some s => seedSphereLoop Z L env is s

/-- Shrinking the spheres of the slivers (MeshingVoroCrustSampler.cpp:3430-3449); the flag is `shrunk_s`. -/
noncomputable def shrinkSlivers (ns : Nat) : List (Nat × ℝ) → PointStore ℝ × Bool → PointStore ℝ × Bool
  | [], s => s
  | p :: ps, s => shrinkSlivers ns ps (if p.1 < ns then (setAttr s.1 p.1 0 p.2, true) else s)

/-- The spheres of a seed as the closeness check sees them: `attrib[2]`, `attrib[3]` and again `attrib[3]` (MeshingVoroCrustSampler.cpp:3468-3469, 3511-3512). -/
def checkedSpheres (a : SeedAttr) : List Nat := [a.s1, a.s2, a.s2]

/-- `min_radius` (MeshingVoroCrustSampler.cpp:3470-3485); `⊤` is `DBL_MAX`. -/
noncomputable def minRadius (S : PointStore ℝ) : List Nat → WithTop ℝ → WithTop ℝ
  | [], m => m
  | i :: is, m => minRadius S is (if i < S.num ∧ (S.pts i 3 : WithTop ℝ) < m then (S.pts i 3 : WithTop ℝ) else m)

/-- `hclosest / min_radius < 1E-2` for two doubles of which either may be `DBL_MAX`; a zero radius gives infinity or a NaN, for which the test fails. -/
noncomputable def tooClose (h m : WithTop ℝ) : Bool :=
  match h, m with
  | some h, some m => if m = 0 then false else decide (h / m < 1e-2)
  | some _, none => true
  | none, _ => false

/-- The check of all seeds of one tree (MeshingVoroCrustSampler.cpp:3465-3500, 3508-3541): the surface spheres marked so far and `shrunk_s`.  The distances that are
only reported are left out. -/
noncomputable def closeSeeds (S : PointStore ℝ) (t : SeedTree) : List Nat → (Nat → Bool) × Bool → Option ((Nat → Bool) × Bool)
  | [], s => some s
  | i :: is, s =>
    match t.attr[i]? with
    | none => none
    | some a =>
      match closestQuery Rounding.exact { pts := t.tree.pts, num := t.tree.num, dim := 3, lt := realLt } t.tree.links (fun k => decide (k ≠ i)) (t.tree.pts i) false ⊤ with
      | none => none
      | some (_, h) =>
        if tooClose h (minRadius S (checkedSpheres a) ⊤) then
          closeSeeds S t is (fun q => s.1 q || (decide (q < S.num) && (checkedSpheres a).contains q), true)
        else closeSeeds S t is s

/-- `sphere[3] *= 0.95` for the marked spheres (MeshingVoroCrustSampler.cpp:3553-3560). -/
noncomputable def shrinkMarked (mark : Nat → Bool) : List Nat → PointStore ℝ → PointStore ℝ
  | [], P => P
  | i :: is, P => shrinkMarked mark is (if mark i then setAttr P i 0 (P.pts i 3 * 0.95) else P)

/-- `generate_surface_seeds` (MeshingVoroCrustSampler.cpp:3112-3577): the surface spheres, `shrunk_s` and the two seed trees afterwards. -/
noncomputable def surfaceSeeds (Z : SphereSet) (L : ℝ) (env : SeedEnv) : Option (PointStore ℝ × Bool × SeedTree × SeedTree) :=
  match seedSphereLoop Z L env (List.range Z.S.num) ⟨none, 0, [], SeedTree.empty, SeedTree.empty⟩ with
  | none => none
  | some s =>
    if s.slivers ≠ [] then
      let q := shrinkSlivers Z.S.num s.slivers (Z.S, false)
      some (q.1, q.2, SeedTree.empty, SeedTree.empty)
    else
      match closeSeeds Z.S s.up (List.range s.up.tree.num) (fun _ => false, false) with
      | none => none
      | some m =>
        match closeSeeds Z.S s.lo (List.range s.lo.tree.num) m with
        | none => none
        | some m =>
          if m.2 then some (shrinkMarked m.1 (List.range Z.S.num) Z.S, true, SeedTree.empty, SeedTree.empty)
          else some (Z.S, false, s.up, s.lo)

/-- The merged list of seeds with adjusted partner indices (MeshingVoroCrustSampler.cpp:1696-1719). -/
def mergeSeedAttrs (up lo : SeedTree) : List SeedAttr :=
  (up.attr.map fun a => { a with pair := a.pair + up.tree.num }) ++ lo.attr

/-- Coordinates of a merged seed. -/
def mergedSeed (up lo : SeedTree) (i : Nat) : Nat → ℝ := if i < up.tree.num then up.tree.pts i else lo.tree.pts (i - up.tree.num)

end VoroCrust
