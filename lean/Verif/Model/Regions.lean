import Verif.Model.Graph
import Verif.Model.Spheres

/-! # Model of region colouring, region merging and the cell-to-face lists

Colouring of the seed graph (`MeshingVoroCrustSampler::color_surface_seeds`, second half), the merging of regions and the
cell-to-face lists (`MeshingVoroCrust::generate_explicit_mesh`).  Attribute 5 of seed `i` is `c i`.
-/

namespace VoroCrust

/-! ## Colouring -/

/-- The loop over the neighbours of one seed (MeshingVoroCrustSampler.cpp:2252-2268): `n` seeds, region `id`.  The flag is
`subregion_done`; the error message for an already coloured neighbour is not modelled.  An index outside the seeds is undefined. -/
def floodNbrs (n id : Nat) : List Nat → (Nat → Nat) × Bool → Option ((Nat → Nat) × Bool)
  | [], s => some s
  | k :: ks, (c, done) =>
    if k < n then
      if c k ≠ 0 then floodNbrs n id ks (c, done) else floodNbrs n id ks (upd c k id, false)
    else none

/-- The body of the sweep for seed `i` (MeshingVoroCrustSampler.cpp:2241-2269).  A null list is skipped. -/
def floodSeed (g : Graph) (n id i : Nat) (s : (Nat → Nat) × Bool) : Option ((Nat → Nat) × Bool) :=
  if s.1 i ≠ id then some s
  else
    match graphNeighbors g i with
    | none => none
    | some none => some s
    | some (some l) => floodNbrs n id l s

/-- One sweep over the seeds (MeshingVoroCrustSampler.cpp:2240-2270): `m` seeds from `i`. -/
def floodSweep (g : Graph) (n id : Nat) : Nat → Nat → (Nat → Nat) × Bool → Option ((Nat → Nat) × Bool)
  | 0, _, s => some s
  | m + 1, i, s =>
    match floodSeed g n id i s with
    | none => none
    | some s' => floodSweep g n id m (i + 1) s'

/-- `while (true)` around the sweep (MeshingVoroCrustSampler.cpp:2236-2273); `none` also if the fuel is used up. -/
def floodRegion (g : Graph) (n id : Nat) : Nat → (Nat → Nat) → Option (Nat → Nat)
  | 0, _ => none
  | fuel + 1, c =>
    match floodSweep g n id n 0 (c, true) with
    | none => none
    | some (c', true) => some c'
    | some (c', false) => floodRegion g n id fuel c'

/-- The search for the first uncoloured seed (MeshingVoroCrustSampler.cpp:2227-2234): `m` seeds from `i`. -/
def firstUncoloured (c : Nat → Nat) : Nat → Nat → Option Nat
  | 0, _ => none
  | m + 1, i => if c i ≠ 0 then firstUncoloured c m (i + 1) else some i

/-- The outer loop (MeshingVoroCrustSampler.cpp:2222-2274): the colours and `region_id`. -/
def colourLoop (g : Graph) (n : Nat) : Nat → (Nat → Nat) → Nat → Option ((Nat → Nat) × Nat)
  | 0, _, _ => none
  | fuel + 1, c, id =>
    match firstUncoloured c n 0 with
    | none => some (c, id)
    | some i =>
      match floodRegion g n (id + 1) (n + 1) (upd c i (id + 1)) with
      | none => none
      | some c' => colourLoop g n fuel c' (id + 1)

/-- The first loop over the seeds for the ghost region (MeshingVoroCrustSampler.cpp:2303-2307). -/
def ghostToZero (ghost : Nat) : Nat → (Nat → Nat) → (Nat → Nat)
  | 0, c => c
  | n + 1, c =>
    let c := ghostToZero ghost n c
    if c n = ghost then upd c n 0 else c

/-- The second loop (MeshingVoroCrustSampler.cpp:2308-2312). -/
def closeGap (ghost : Nat) : Nat → (Nat → Nat) → (Nat → Nat)
  | 0, c => c
  | n + 1, c =>
    let c := closeGap ghost n c
    if ghost < c n then upd c n (c n - 1) else c

/-- Colouring and ghost marking (MeshingVoroCrustSampler.cpp:2222-2314), given the index `iclosest` of the seed found for the far point:
the final attributes 5 and `num_subregions` (`region_id - 1`).  Without seeds the subtraction wraps around and the attributes of a seed that
does not exist are read: `none`. -/
def colourSeeds (g : Graph) (n iclosest : Nat) : Option ((Nat → Nat) × Nat) :=
  match colourLoop g n (n + 1) (fun _ => 0) 0 with
  | none => none
  | some (c, id) =>
    if iclosest < n then some (closeGap (c iclosest) n (ghostToZero (c iclosest) n c), id - 1) else none

/-- The loop that computes the bounding box (MeshingVoroCrustSampler.cpp:2284-2292) in one coordinate: values of the first `m + 1` seeds.  (`DBL_MAX` and
`-DBL_MAX` are replaced by the first seed.) -/
noncomputable def boxRange (v : Nat → ℝ) : Nat → ℝ × ℝ
  | 0 => (v 0, v 0)
  | m + 1 => (min (boxRange v m).1 (v (m + 1)), max (boxRange v m).2 (v (m + 1)))

/-- The far point (MeshingVoroCrustSampler.cpp:2293). -/
noncomputable def farPoint (P : PointStore ℝ) : Nat → ℝ := fun d =>
  let b := boxRange (fun i => P.pts i d) (P.num - 1)
  b.2 + 2 * (b.2 - b.1)

/-- The second half of `color_surface_seeds` (MeshingVoroCrustSampler.cpp:2222-2314). -/
noncomputable def colourSurfaceSeeds (P : PointStore ℝ) (ln : Links) (g : Graph) : Option ((Nat → Nat) × Nat) :=
  match closestSphere P ln (farPoint P) with
  | none => none
  | some (iclosest, _) => colourSeeds g P.num iclosest

/-! ## Merging of regions -/

/-- One face of the first loop (MeshingVoroCrust.cpp:658-671): seeds `si`, `sj`; `ns` surface seeds, `n` seeds, `nr` regions, `reg` is
`seeds_region_id`, `rni` is `region_new_index`. -/
def mergeFace (n ns nr : Nat) (reg : Nat → Nat) (rni : Nat → Nat) (f : Nat × Nat) : Option (Nat → Nat) :=
  if f.1 < ns ∨ f.2 < ns then some rni
  else if f.1 < n ∧ f.2 < n ∧ reg f.1 < nr ∧ reg f.2 < nr then
    if rni (reg f.1) = rni (reg f.2) then some rni
    else if rni (reg f.1) < rni (reg f.2) then some (upd rni (reg f.2) (rni (reg f.1)))
    else some (upd rni (reg f.1) (rni (reg f.2)))
  else none

/-- The first loop (MeshingVoroCrust.cpp:658-671). -/
def mergeFaces (n ns nr : Nat) (reg : Nat → Nat) : List (Nat × Nat) → (Nat → Nat) → Option (Nat → Nat)
  | [], rni => some rni
  | f :: fs, rni =>
    match mergeFace n ns nr reg rni f with
    | none => none
    | some rni' => mergeFaces n ns nr reg fs rni'

/-- `while (region_new_index[id] != id) id = region_new_index[id];` (MeshingVoroCrust.cpp:678). -/
def chaseRegion (nr : Nat) (rni : Nat → Nat) : Nat → Nat → Option Nat
  | 0, _ => none
  | fuel + 1, id => if id < nr then if rni id ≠ id then chaseRegion nr rni fuel (rni id) else some id else none

/-- The second loop (MeshingVoroCrust.cpp:674-680): regions `< m`. -/
def chaseRegions (nr : Nat) (rni : Nat → Nat) : Nat → Option (Nat → Nat)
  | 0 => some rni
  | r + 1 =>
    match chaseRegions nr rni r with
    | none => none
    | some q =>
      if q r = r then some q
      else
        match chaseRegion nr q (nr + 1) (q r) with
        | none => none
        | some id => some (upd q r id)

/-- The count of active regions (MeshingVoroCrust.cpp:682-686). -/
def countActive (q : Nat → Nat) : Nat → Nat
  | 0 => 0
  | r + 1 => countActive q r + if q r = r then 1 else 0

/-- `num_regions` (MeshingVoroCrust.cpp:626-631): the largest region of the first `n` seeds plus one. -/
def maxRegion (reg : Nat → Nat) : Nat → Nat
  | 0 => 0
  | i + 1 => if maxRegion reg i < reg i then reg i else maxRegion reg i

/-- Region adjustment (MeshingVoroCrust.cpp:626-631, 654-694): the new regions of the seeds and `num_active_regions`.  The last entry of a face
list is its pair of seeds. -/
def mergeRegions (n ns : Nat) (reg : Nat → Nat) (faces : List (Nat × Nat)) : Option ((Nat → Nat) × Nat) :=
  let nr := maxRegion reg n + 1
  match mergeFaces n ns nr reg faces fun r => r with
  | none => none
  | some rni =>
    match chaseRegions nr rni nr with
    | none => none
    | some q => some (fun i => q (reg i), countActive q nr - 1)

/-! ## Cell-to-face lists -/

/-- The counting loop (MeshingVoroCrust.cpp:701-708). -/
def countCellFaces (n : Nat) (reg : Nat → Nat) : List (Nat × Nat) → (Nat → Nat) → Option (Nat → Nat)
  | [], k => some k
  | f :: fs, k =>
    if f.1 < n ∧ f.2 < n then
      let k := if reg f.1 ≠ 0 then upd k f.1 (k f.1 + 1) else k
      let k := if reg f.2 ≠ 0 then upd k f.2 (k f.2 + 1) else k
      countCellFaces n reg fs k
    else none

/-- One list `cell_faces[iseed]` with its allocated size; the number of entries is `cell_num_faces[iseed]`. -/
structure CellList where
  cap : Nat
  cells : Nat → Nat

/-- The allocation loop (MeshingVoroCrust.cpp:712-718): lists and number of meshed cells for the seeds `< n`. -/
def allocCells (reg : Nat → Nat) (k : Nat → Nat) : Nat → (Nat → Option CellList) × (Nat → Nat) × Nat
  | 0 => (fun _ => none, k, 0)
  | i + 1 =>
    let s := allocCells reg k i
    if reg i = 0 then s else (upd s.1 i (some { cap := s.2.1 i, cells := fun _ => 0 }), upd s.2.1 i 0, s.2.2 + 1)

/-- `cell_faces[i][cell_num_faces[i]] = iface; cell_num_faces[i]++;` -/
def pushCell (cf : Nat → Option CellList) (k : Nat → Nat) (i iface : Nat) : Option ((Nat → Option CellList) × (Nat → Nat)) :=
  match cf i with
  | none => none
  | some l => if k i < l.cap then some (upd cf i (some { l with cells := upd l.cells (k i) iface }), upd k i (k i + 1)) else none

/-- The filling loop (MeshingVoroCrust.cpp:720-733) from face `iface`. -/
def fillCells (n : Nat) (reg : Nat → Nat) : List (Nat × Nat) → Nat → (Nat → Option CellList) × (Nat → Nat) → Option ((Nat → Option CellList) × (Nat → Nat))
  | [], _, s => some s
  | f :: fs, iface, s =>
    if f.1 < n ∧ f.2 < n then
      match (if reg f.1 ≠ 0 then pushCell s.1 s.2 f.1 iface else some s) with
      | none => none
      | some s =>
        match (if reg f.2 ≠ 0 then pushCell s.1 s.2 f.2 iface else some s) with
        | none => none
        | some s => fillCells n reg fs (iface + 1) s
    else none

/-- The lists (MeshingVoroCrust.cpp:698-733): `cell_faces`, `cell_num_faces` and `num_meshed_cells`. -/
def cellFaces (n : Nat) (reg : Nat → Nat) (faces : List (Nat × Nat)) : Option ((Nat → Option CellList) × (Nat → Nat) × Nat) :=
  match countCellFaces n reg faces fun _ => 0 with
  | none => none
  | some k =>
    let a := allocCells reg k n
    (fillCells n reg faces 0 (a.1, a.2.1)).map fun s => (s.1, s.2, a.2.2)

end VoroCrust
