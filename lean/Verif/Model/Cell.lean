import Verif.Model.Front

/-!
# Model of the construction of one Voronoi cell

`MeshingVoronoiMesher::get_3d_Voronoi_cell`, `construct_initial_polytope` and `trim_vertex` (MeshingVoronoiMesher.cpp:1951-2291).  Exact real arithmetic.

The three arrays `corners`, `corners_neighbors`, `corners_seeds` are functions with a number of entries and a capacity; coordinates `DBL_MAX` and indices `SIZE_MAX` are `none`.
A wall `SIZE_MAX - k` of the initial box is `Wall.box k`, a local seed is `Wall.pt j`.  `none` as a result is undefined behaviour.
-/

namespace VoroCrust

open Classical

/-- An entry of `corners_seeds`. -/
inductive Wall
  | box (k : Nat)
  | pt (j : Nat)
deriving DecidableEq

/-- `corners`, `corners_neighbors`, `corners_seeds`, `num_corners`, `corners_cap`. -/
structure Poly where
  num : Nat
  cap : Nat
  pos : Nat → Option (Nat → ℝ)
  nbr : Nat → Nat → Option Nat
  wall : Nat → Nat → Option Wall

/-- The signs of the coordinates of the box corners (MeshingVoronoiMesher.cpp:2128-2135). -/
def boxSign (c d : Nat) : ℝ :=
  if d = 0 then (if c < 4 then 1 else -1) else if d = 1 then (if c % 4 < 2 then -1 else 1) else if d = 2 then (if c % 2 = 0 then 1 else -1) else 0

/-- The neighbours of the box corners (MeshingVoronoiMesher.cpp:2137-2144). -/
def boxNbr : List (List Nat) := [[1, 2, 4], [5, 3, 0], [6, 0, 3], [2, 1, 7], [0, 6, 5], [4, 7, 1], [7, 4, 2], [3, 5, 6]]

/-- The walls of the box corners (MeshingVoronoiMesher.cpp:2146-2153). -/
def boxWall : List (List Nat) := [[0, 4, 3], [5, 0, 3], [4, 0, 1], [0, 5, 1], [4, 2, 3], [2, 5, 3], [2, 4, 1], [5, 2, 1]]

/-- `construct_initial_polytope` (MeshingVoronoiMesher.cpp:2109-2157). -/
noncomputable def initPoly (x : Nat → ℝ) (r : ℝ) : Poly where
  num := 8
  cap := 100
  pos c := if c < 8 then some fun d => x d + boxSign c d * r else none
  nbr c i := (boxNbr.getD c [])[i]?
  wall c i := ((boxWall.getD c [])[i]?).map Wall.box

/-! ## Trimming -/

/-- The scalar product with the normal (MeshingVoronoiMesher.cpp:2014-2015, 2193-2194, 2205-2206). -/
def side (xo n v : Nat → ℝ) : ℝ := n 0 * (v 0 - xo 0) + n 1 * (v 1 - xo 1) + n 2 * (v 2 - xo 2)

/-- One entry of `corners_neighbors`. -/
def Poly.setNbr (P : Poly) (c i : Nat) (v : Option Nat) : Poly := { P with nbr := fun a j => if a = c ∧ j = i then v else P.nbr a j }

/-- The first of the three slots whose neighbour satisfies a test. -/
def Poly.slot (P : Poly) (c : Nat) (p : Option Nat → Bool) : Option Nat := if p (P.nbr c 0) then some 0 else if p (P.nbr c 1) then some 1 else if p (P.nbr c 2) then some 2 else none

/-- The loop that redirects the neighbour (MeshingVoronoiMesher.cpp:2233-2240). -/
def Poly.redirect (P : Poly) (d c k : Nat) : Poly :=
  match P.slot d (fun o => o == some c) with
  | some j => P.setNbr d j (some k)
  | none => P

/-- The parameter of the new corner on its edge (MeshingVoronoiMesher.cpp:2204-2211). -/
noncomputable def cutParam (xi xj : ℝ) : ℝ := if xi / (xi - xj) < 0 then 0 else if 1 < xi / (xi - xj) then 1 else xi / (xi - xj)

/-- The new corner between `c` and `d` along slot `i` of `c` (MeshingVoronoiMesher.cpp:2202-2257). -/
noncomputable def cutEdge (t : Nat) (xo n : Nat → ℝ) (c i d : Nat) (xc xd : Nat → ℝ) (P : Poly) : Option Poly :=
  match P.wall c i, P.wall c ((i + 2) % 3) with
  | some wi, some wm =>
    if P.num < P.cap then
      some (Poly.redirect
        { num := P.num + 1
          cap := if P.num + 1 = P.cap then 2 * P.cap else P.cap
          pos := upd P.pos P.num (some fun e => xc e + cutParam (side xo n xc) (side xo n xd) * (xd e - xc e))
          nbr := upd P.nbr P.num fun j => if j = i then some d else none
          wall := upd P.wall P.num fun j => if j = i then some wi else if j = (i + 2) % 3 then some wm else some (Wall.pt t) } d c P.num)
    else none
  | _, _ => none

/-- One pass of the loop over the slots (MeshingVoronoiMesher.cpp:2180-2258). -/
noncomputable def trimSlot (rec : Nat → Nat → Poly → Option Poly) (t : Nat) (xo n : Nat → ℝ) (c i : Nat) (P : Poly) : Option Poly :=
  match P.nbr c i with
  | none => some P
  | some d =>
    if P.num ≤ d then none
    else if P.nbr d 0 = none ∨ P.nbr d 1 = none ∨ P.nbr d 2 = none then some P
    else
      match P.pos c, P.pos d with
      | some xc, some xd => if side xo n xd > 1e-10 then rec d c (P.setNbr c i none) else cutEdge t xo n c i d xc xd (P.setNbr c i none)
      | _, _ => none

/-- The loop over the three slots, beginning with `io`. -/
noncomputable def trimSlots (rec : Nat → Nat → Poly → Option Poly) (t : Nat) (xo n : Nat → ℝ) (c io : Nat) (P : Poly) : Option Poly :=
  match trimSlot rec t xo n c (io % 3) P with
  | none => none
  | some P =>
    match trimSlot rec t xo n c ((io + 1) % 3) P with
    | none => none
    | some P => trimSlot rec t xo n c ((io + 2) % 3) P

/-- The deletion of a corner (MeshingVoronoiMesher.cpp:2261-2267). -/
def Poly.delete (P : Poly) (c : Nat) : Poly := { P with pos := upd P.pos c none, nbr := upd P.nbr c fun _ => none, wall := upd P.wall c fun _ => none }

/-- The links of one new corner (MeshingVoronoiMesher.cpp:2273-2285). -/
def Poly.link (P : Poly) (lo i : Nat) : Poly :=
  match P.slot i (fun o => o.isSome) with
  | some j => (P.setNbr i ((j + 1) % 3) (some (if i + 1 = P.num then lo else i + 1))).setNbr i ((j + 2) % 3) (some (if lo < i then i - 1 else P.num - 1))
  | none => P

/-- The ring of the new corners `lo, .., num - 1` (MeshingVoronoiMesher.cpp:2269-2287): `k` of them from `i`. -/
def linkRing (lo : Nat) : Nat → Nat → Poly → Poly
  | 0, _, P => P
  | k + 1, i, P => linkRing lo k (i + 1) (P.link lo i)

/-- The slot after the one of the corner the recursion came from (MeshingVoronoiMesher.cpp:2167-2179). -/
def firstSlot (P : Poly) (c old : Nat) : Nat :=
  if old = c then 0
  else
    match P.slot c (fun o => o == some old) with
    | some j => j + 1
    | none => 0

/-- `trim_vertex` (MeshingVoronoiMesher.cpp:2162-2291). -/
noncomputable def trimVertex (t : Nat) (xo n : Nat → ℝ) : Nat → Nat → Nat → Poly → Option Poly
  | 0, _, _, _ => none
  | f + 1, c, old, P =>
    match trimSlots (trimVertex t xo n f) t xo n c (firstSlot P c old) P with
    | none => none
    | some P1 => some (if c = old then linkRing P.num (P1.num - P.num) P.num (P1.delete c) else P1.delete c)

/-! ## The loop over the corners -/

/-- A scalar product of differences (MeshingVoronoiMesher.cpp:1992-1998). -/
def dotDiff (x a b : Nat → ℝ) : ℝ := (a 0 - x 0) * (b 0 - x 0) + (a 1 - x 1) * (b 1 - x 1) + (a 2 - x 2) * (b 2 - x 2)

/-- `lambda_min` and `closest_seed` (MeshingVoronoiMesher.cpp:1988-2007); `none` is `DBL_MAX`. -/
noncomputable def bestSeed (x v : Nat → ℝ) : List (Nat → ℝ) → Nat → Option (ℝ × Nat × (Nat → ℝ)) → Option (ℝ × Nat × (Nat → ℝ))
  | [], _, b => b
  | y :: ys, j, b =>
    if dotDiff x y v < 1e-10 then bestSeed x v ys (j + 1) b
    else
      match b with
      | none => bestSeed x v ys (j + 1) (some (dotDiff x y y / dotDiff x y v, j, y))
      | some (l, a, z) => if dotDiff x y y / dotDiff x y v < l then bestSeed x v ys (j + 1) (some (dotDiff x y y / dotDiff x y v, j, y)) else bestSeed x v ys (j + 1) (some (l, a, z))

/-- The middle of `x` and `y` (MeshingVoronoiMesher.cpp:2013). -/
noncomputable def midPoint (x y : Nat → ℝ) : Nat → ℝ := fun d => 0.5 * (y d + x d)

/-- The normal of the bisector (MeshingVoronoiMesher.cpp:2014-2018). -/
noncomputable def bisectorNormal (x y : Nat → ℝ) : Nat → ℝ := fun d => (y d - x d) / Real.sqrt (dotDiff x y y)

/-- One corner (MeshingVoronoiMesher.cpp:1983-2025).  The recursion of `trim_vertex` is at most as deep as there are corners. -/
noncomputable def cellStep (x : Nat → ℝ) (loc : List (Nat → ℝ)) (c : Nat) (P : Poly) : Option Poly :=
  match P.pos c with
  | none => some P
  | some v =>
    match bestSeed x v loc 0 none with
    | none => some P
    | some (l, j, y) =>
      if l > 2 then some P
      else if side (midPoint x y) (bisectorNormal x y) v ≤ 1e-10 then some P
      else trimVertex j (midPoint x y) (bisectorNormal x y) (P.num + 1) c c P

/-- The loop over the corners, of which there can be more and more; `some none` when the fuel is used up. -/
noncomputable def cellLoop (x : Nat → ℝ) (loc : List (Nat → ℝ)) : Nat → Nat → Poly → Option (Option Poly)
  | 0, _, _ => some none
  | f + 1, c, P =>
    if c < P.num then
      match cellStep x loc c P with
      | none => none
      | some P => cellLoop x loc f (c + 1) P
    else some (some P)

/-! ## The result -/

/-- The square of the distance of the farthest corner (MeshingVoronoiMesher.cpp:2027-2040). -/
noncomputable def farthestSq (x : Nat → ℝ) (P : Poly) : Nat → ℝ
  | 0 => 0
  | c + 1 =>
    match P.pos c with
    | none => farthestSq x P c
    | some v => if distSq3 v x > farthestSq x P c then distSq3 v x else farthestSq x P c

/-- One corner of the result. -/
structure CellCorner where
  x : Nat → ℝ
  nbr : Nat → Nat
  seeds : Nat → Nat
  owner : Option Nat

/-- `corner_new_index` (MeshingVoronoiMesher.cpp:2046-2054): only set for corners that are left. -/
def newIndex (P : Poly) (c : Nat) : Option Nat := if (P.pos c).isSome then some ((List.range c).countP fun a => (P.pos a).isSome) else none

/-- `corner_new_index[cell_corner_neighbors[..]]` (MeshingVoronoiMesher.cpp:2066). -/
def slotIndex (P : Poly) (c i : Nat) : Option Nat :=
  match P.nbr c i with
  | none => none
  | some d => if d < P.num then newIndex P d else none

/-- `local_neighbors[cell_corner_seeds[..]]` (MeshingVoronoiMesher.cpp:2050): a wall of the box is far outside the array. -/
def wallSeed (loc : List Nat) : Option Wall → Option Nat
  | some (Wall.pt j) => loc[j]?
  | _ => none

/-- The seed that owns a corner (MeshingVoronoiMesher.cpp:2070-2090): the least one that is not a ghost among those as far from the corner as `x`. -/
noncomputable def cornerOwner (ghost : Nat → Bool) (pts : Nat → Nat → ℝ) (v : Nat → ℝ) (rv : ℝ) : List Nat → Option Nat → Option Nat
  | [], o => o
  | q :: qs, o =>
    if ghost q = false ∧ |rv - Real.sqrt (distSq3 v (pts q))| < 1e-10 ∧ (∀ a, o = some a → q < a) then cornerOwner ghost pts v rv qs (some q) else cornerOwner ghost pts v rv qs o

/-- Three entries. -/
def triple (a b c : Nat) : Nat → Nat := fun i => if i = 0 then a else if i = 1 then b else c

/-- Three optional entries. -/
def triple? (f : Nat → Option Nat) : Option (Nat → Nat) :=
  match f 0, f 1, f 2 with
  | some a, some b, some c => some (triple a b c)
  | _, _, _ => none

/-- One corner of the result (MeshingVoronoiMesher.cpp:2046-2092). -/
noncomputable def resultCorner (ghost : Nat → Bool) (pts : Nat → Nat → ℝ) (x : Nat → ℝ) (loc : List Nat) (P : Poly) (c : Nat) (v : Nat → ℝ) : Option CellCorner :=
  match triple? (fun i => wallSeed loc (P.wall c i)), triple? (slotIndex P c) with
  | some s, some k => some ⟨v, k, s, cornerOwner ghost pts v (Real.sqrt (distSq3 v x)) loc none⟩
  | _, _ => none

/-- The corners that are left, `k` of them from `c`. -/
noncomputable def resultCorners (ghost : Nat → Bool) (pts : Nat → Nat → ℝ) (x : Nat → ℝ) (loc : List Nat) (P : Poly) : Nat → Nat → Option (List CellCorner)
  | 0, _ => some []
  | k + 1, c =>
    match P.pos c with
    | none => resultCorners ghost pts x loc P k (c + 1)
    | some v =>
      match resultCorner ghost pts x loc P c v, resultCorners ghost pts x loc P k (c + 1) with
      | some a, some l => some (a :: l)
      | _, _ => none

/-- `get_3d_Voronoi_cell` (MeshingVoronoiMesher.cpp:1951-2107), `fuel` rounds of the outer loop and `fuel` corners in each; `some none` when that does not suffice. -/
noncomputable def getCell (T : MTree) (ghost : Nat → Bool) (seed fuel' : Nat) : Nat → ℝ → Option (Option (List CellCorner))
  | 0, _ => some none
  | f + 1, r =>
    match sphereQuery Rounding.exact T.P T.ln (fun _ => true) (inSphereTest (r * 2)) (T.P.pts seed) (r * 2) with
    | none => none
    | some [] => getCell T ghost seed fuel' f (r * 2)
    | some (q :: qs) =>
      match cellLoop (T.P.pts seed) ((q :: qs).map T.P.pts) fuel' 0 (initPoly (T.P.pts seed) (10 * (r * 2))) with
      | none => none
      | some none => some none
      | some (some P) =>
        if 2 * Real.sqrt (farthestSq (T.P.pts seed) P P.num) < r * 2 + 1e-10 then (resultCorners ghost T.P.pts (T.P.pts seed) (q :: qs) P P.num 0).map some
        else getCell T ghost seed fuel' f (r * 2)

end VoroCrust
