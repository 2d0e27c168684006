import Verif.Model.Seeds
import Verif.Model.Graph
import Verif.Model.Memory
import Verif.Model.Regions
import Mathlib.Analysis.SpecialFunctions.Trigonometric.Arctan

/-! # Model of the first half of `MeshingVoroCrustSampler::color_surface_seeds`

The seeds around every surface and edge sphere are marked by walking along the triangles of spheres around it, and seeds with the same mark are connected.  Attribute 5 of seed `s` is
`c s`.  `none` stands for undefined behaviour and for loops that never end; in `Option (Option α)` a loop that used up its fuel is `some none`.
-/

namespace VoroCrust

open Classical

/-- The merged seeds and spheres (MeshingVoroCrustSampler.cpp:1665-1719): attributes 1 to 4 and positions. -/
structure FanEnv where
  attr : List SeedAttr
  seed : Nat → V3
  sphere : Nat → V3

/-- `while (si != isphere)` (MeshingVoroCrustSampler.cpp:1758-1761 and in all later loops): `sj` and `sk`; the loop never ends if the sphere is not among the three. -/
def spokesOf (i : Nat) (a : SeedAttr) : Option (Nat × Nat) :=
  if a.s1 = i then some (a.s2, a.s3) else if a.s2 = i then some (a.s3, a.s1) else if a.s3 = i then some (a.s1, a.s2) else none

/-- The attributes of a seed turned to sphere `i`: `seed_2`, `sj`, `sk`. -/
def turned (F : FanEnv) (i s : Nat) : Option (Nat × Nat × Nat) :=
  match F.attr[s]? with
  | none => none
  | some a => (spokesOf i a).map fun q => (a.pair, q)

/-- `dot` (MeshingVoroCrustSampler.cpp:1763-1773, 1842-1852, 2078-2088, 2159-2169). -/
noncomputable def pairDot (F : FanEnv) (s p i j k : Nat) : ℝ :=
  dot3 (fun d => F.seed p d - F.seed s d) (triNormal ![F.sphere i, F.sphere j, F.sphere k]).1

/-- Marking a pair (MeshingVoroCrustSampler.cpp:1775-1786, 1854-1865, 2090-2104, 2171-2185): `a` below and `b` above.  The partner has to exist. -/
noncomputable def markPair (F : FanEnv) (i s p j k a b : Nat) (c : Nat → Nat) : Option (Nat → Nat) :=
  if p < F.attr.length then some (if 0 < pairDot F s p i j k then upd (upd c s a) p b else upd (upd c s b) p a) else none

/-- The search for an unmarked pair with the spoke `j` (MeshingVoroCrustSampler.cpp:1795-1840, 2114-2157): the seed, its partner and `sk` after the exchange.  The first loop only
tests whether the second one finds anything; for edge spheres the mark is looked at before the indices are rotated. -/
def nextTriangle (F : FanEnv) (i j : Nat) (c : Nat → Nat) : List Nat → Option (Option (Nat × Nat × Nat))
  | [] => some none
  | s :: l =>
    match turned F i s with
    | none => none
    | some (p, u, v) =>
      if c s ≠ 0 then nextTriangle F i j c l
      else if u ≠ j ∧ v ≠ j then nextTriangle F i j c l
      else some (some (s, p, if u ≠ j then u else v))

/-- The loop `while (true)` around a sphere (MeshingVoroCrustSampler.cpp:1792-1872, 2111-2192): `stop` is the test after each triangle. -/
noncomputable def walkLoop (F : FanEnv) (i : Nat) (l : List Nat) (stop : Nat → Bool) (a b : Nat) : Nat → Nat → (Nat → Nat) → Option (Option (Nat → Nat))
  | 0, _, _ => some none
  | f + 1, j, c =>
    match nextTriangle F i j c l with
    | none => none
    | some none => some (some c)
    | some (some (s, p, k)) =>
      match markPair F i s p j k a b c with
      | none => none
      | some c' => if stop k then some (some c') else walkLoop F i l stop a b f k c'

/-- `attrib[5] = 0` for the seeds of a sphere (MeshingVoroCrustSampler.cpp:1740-1746, 1892-1897, 1914-1920, 2210-2215). -/
def clearMarks (F : FanEnv) : List Nat → (Nat → Nat) → Option (Nat → Nat)
  | [], c => some c
  | s :: l, c => if s < F.attr.length then clearMarks F l (upd c s 0) else none

/-- The marks of the seeds around surface sphere `i` (MeshingVoroCrustSampler.cpp:1740-1872); `fuel` rounds. -/
noncomputable def markFan (F : FanEnv) (i : Nat) (l : List Nat) (fuel : Nat) (c : Nat → Nat) : Option (Option (Nat → Nat)) :=
  match clearMarks F l c, l with
  | some c, s :: _ =>
    match turned F i s with
    | none => none
    | some (p, u, v) =>
      match markPair F i s p u v 1 2 c with
      | none => none
      | some c => walkLoop F i l (fun k => k == u) 1 2 fuel v c
  | _, _ => none

/-- The inner loop of the connections (MeshingVoroCrustSampler.cpp:1879-1888, 2200-2206); `n` seeds, capacity `cap`. -/
def joinTo (n cap : Nat) (c : Nat → Nat) (s : Nat) : List Nat → Graph → Option Graph
  | [], g => some g
  | t :: l, g =>
    if c s = c t then
      match graphConnectNodes n cap g s t with
      | none => none
      | some g => joinTo n cap c s l g
    else joinTo n cap c s l g

/-- The connections of the seeds of one sphere (MeshingVoroCrustSampler.cpp:1874-1890, 2195-2208). -/
def joinEqual (n cap : Nat) (c : Nat → Nat) : List Nat → Graph → Option Graph
  | [], g => some g
  | s :: l, g =>
    match joinTo n cap c s l g with
    | none => none
    | some g => joinEqual n cap c l g

/-! ## Edge spheres -/

/-- `isphere_neighbor` (MeshingVoroCrustSampler.cpp:1922-1945): a neighbour that is an edge or corner sphere, or the sphere itself; `ns` surface spheres. -/
def featureNeighbor (F : FanEnv) (ns i : Nat) : List Nat → Option Nat
  | [] => some i
  | s :: l =>
    match turned F i s with
    | none => none
    | some (_, u, v) => if ns ≤ u then some u else if ns ≤ v then some v else featureNeighbor F ns i l

/-- Twice `num_loops` (MeshingVoroCrustSampler.cpp:1947-1962). -/
def countSheets (F : FanEnv) (i nb : Nat) : List Nat → Option Nat
  | [] => some 0
  | s :: l =>
    match turned F i s, countSheets F i nb l with
    | some (_, u, v), some m => some (if u = nb ∨ v = nb then m + 1 else m)
    | _, _ => none

/-- The first spheres of the sheets (MeshingVoroCrustSampler.cpp:1965-1999), an array with `cap` entries. -/
def firstLayer (F : FanEnv) (i nb cap : Nat) : List Nat → List Nat → Option (List Nat)
  | [], js => some js
  | s :: l, js =>
    match turned F i s with
    | none => none
    | some (_, u, v) =>
      if u ≠ nb ∧ v ≠ nb then firstLayer F i nb cap l js
      else if (if u ≠ nb then u else v) ∈ js then firstLayer F i nb cap l js
      else if js.length < cap then firstLayer F i nb cap l (js ++ [if u ≠ nb then u else v])
      else none

/-- `e2` and `e3` (MeshingVoroCrustSampler.cpp:2001-2030); with a norm of zero the angles are not numbers, which is not followed any further. -/
noncomputable def edgeFrame (x y z : V3) : Option (V3 × V3) :=
  let a : V3 := fun d => y d - x d
  let e1 : V3 := fun d => a d / Real.sqrt (dot3 a a)
  let w : V3 := fun d => z d - x d
  let b : V3 := fun d => w d - dot3 w e1 * e1 d
  let e2 : V3 := fun d => b d / Real.sqrt (dot3 b b)
  if Real.sqrt (dot3 a a) = 0 ∨ Real.sqrt (dot3 b b) = 0 then none else some (e2, cross3 e1 e2)

/-- `get_point_angle` (MeshingGeometricalMethods.cpp:50-65); `⊤` is `DBL_MAX`. -/
noncomputable def pointAngle (x y : ℝ) : WithTop ℝ :=
  if |x| < 1e-10 ∧ |y| < 1e-10 then ⊤
  else
    let angle := if |x| > |y| then Real.arctan (|y| / |x|) else 0.5 * Real.pi - Real.arctan (|x| / |y|)
    ((if x > -1e-10 ∧ y > -1e-10 then angle else if x > -1e-10 then 2 * Real.pi - angle else if y > -1e-10 then Real.pi - angle else Real.pi + angle : ℝ) : WithTop ℝ)

/-- The sheets in the order of their angles (MeshingVoroCrustSampler.cpp:2013-2017, 2032-2047). -/
noncomputable def sortSheets (F : FanEnv) (i nb : Nat) (js : List Nat) : Option (Nat → Nat) :=
  match js with
  | [] => none
  | j0 :: _ =>
    match edgeFrame (F.sphere i) (F.sphere nb) (F.sphere j0) with
    | none => none
    | some (e2, e3) =>
      let w : Nat → V3 := fun j d => F.sphere j d - F.sphere i d
      (quicksort2 (fun a b : WithTop ℝ => decide (a < b)) js.length (fun m => pointAngle (dot3 (w (js.getD m 0)) e2) (dot3 (w (js.getD m 0)) e3)) (fun m => js.getD m 0) 0
        (js.length - 1)).map Prod.snd

/-- The first triangle of a sheet (MeshingVoroCrustSampler.cpp:2053-2108): the new marks. -/
noncomputable def markFirst (F : FanEnv) (i nb j a b : Nat) (c : Nat → Nat) : List Nat → Option (Nat × (Nat → Nat))
  | [] => some (j, c)
  | s :: l =>
    if c s ≠ 0 then markFirst F i nb j a b c l
    else
      match turned F i s with
      | none => none
      | some (p, u, v) =>
        if (u ≠ nb ∧ u ≠ j) ∨ (v ≠ nb ∧ v ≠ j) then markFirst F i nb j a b c l
        else
          match markPair F i s p (if u ≠ nb then v else u) (if u ≠ nb then u else v) a b c with
          | none => none
          | some c => some (if u ≠ nb then u else v, c)

/-- The loop over the sheets (MeshingVoroCrustSampler.cpp:2049-2193): `m` of `n` from number `q`. -/
noncomputable def markSheets (F : FanEnv) (ns i nb : Nat) (l : List Nat) (J : Nat → Nat) (n fuel : Nat) : Nat → Nat → (Nat → Nat) → Option (Option (Nat → Nat))
  | 0, _, c => some (some c)
  | m + 1, q, c =>
    match markFirst F i nb (J q) (q + 1) (if q + 2 > n then 1 else q + 2) c l with
    | none => none
    | some (j, c) =>
      match walkLoop F i l (fun k => decide (ns ≤ k)) (q + 1) (if q + 2 > n then 1 else q + 2) fuel j c with
      | none => none
      | some none => some none
      | some (some c) => markSheets F ns i nb l J n fuel m (q + 1) c

/-- The marks of the seeds around edge sphere `i` (MeshingVoroCrustSampler.cpp:1914-2193). -/
noncomputable def markEdge (F : FanEnv) (ns i : Nat) (l : List Nat) (fuel : Nat) (c : Nat → Nat) : Option (Option (Nat → Nat)) :=
  match clearMarks F l c, featureNeighbor F ns i l with
  | some c, some nb =>
    match countSheets F i nb l with
    | none => none
    | some t =>
      match firstLayer F i nb (t / 2) l [] with
      | none => none
      | some js =>
        match sortSheets F i nb js with
        | none => none
        | some J => markSheets F ns i nb l J js.length fuel js.length 0 c
  | _, _ => none

/-! ## All spheres -/

/-- The directed graph from spheres to seeds (MeshingVoroCrustSampler.cpp:1721-1728): `n` spheres, capacity `cap`, seeds from `q` on. -/
def linkSpheres (n cap : Nat) : List SeedAttr → Nat → Graph → Option Graph
  | [], _, g => some g
  | a :: l, q, g =>
    match graphConnect n cap g a.s1 q with
    | none => none
    | some (_, g) =>
      match graphConnect n cap g a.s2 q with
      | none => none
      | some (_, g) =>
        match graphConnect n cap g a.s3 q with
        | none => none
        | some (_, g) => linkSpheres n cap l (q + 1) g

/-- One surface or edge sphere (MeshingVoroCrustSampler.cpp:1735-1898, 1907-2217): attributes 5 and the graph of the seeds.  `ns` surface spheres; `G` leads from spheres to seeds. -/
noncomputable def colourSphere (F : FanEnv) (ns cap : Nat) (G : Graph) (i : Nat) (c : Nat → Nat) (g : Graph) : Option ((Nat → Nat) × Graph) :=
  match graphNeighbors G i with
  | none => none
  | some none => some (c, g)
  | some (some l) =>
    match (if i < ns then markFan F i l (l.length + 1) c else markEdge F ns i l (l.length + 1) c) with
    | some (some c) =>
      match joinEqual F.attr.length cap c l g, clearMarks F l c with
      | some g, some c => some (c, g)
      | _, _ => none
    | _ => none

/-- The two loops over the spheres (MeshingVoroCrustSampler.cpp:1733-2220): the first `n` of them. -/
noncomputable def colourSpheres (F : FanEnv) (ns cap : Nat) (G : Graph) : Nat → (Nat → Nat) → Graph → Option ((Nat → Nat) × Graph)
  | 0, c, g => some (c, g)
  | n + 1, c, g =>
    match colourSpheres F ns cap G n c g with
    | none => none
    | some (c, g) => colourSphere F ns cap G n c g

end VoroCrust
