import Verif.Model.KdQuery

/-!
# Model of the spokes of `MeshingSmartTree`

A spoke is a segment from a point of a Voronoi cell in a given direction, cut where it leaves the cell.  Exact real arithmetic; a length is a `WithTop ℝ` and `⊤` is `DBL_MAX`.  `none` stands for
undefined behaviour and for fuel or random draws used up.
-/

namespace VoroCrust

open Classical

/-- `for idim: s += f(idim)`. -/
def sumDim (f : Nat → ℝ) : Nat → ℝ
  | 0 => 0
  | n + 1 => sumDim f n + f n

/-- `dot_o`, not below 0 (MeshingSmartTree.cpp:3083-3091). -/
noncomputable def dotO (c p o : Nat → ℝ) (dim : Nat) : ℝ :=
  let s := sumDim (fun d => (0.5 * (p d + c d) - o d) * (p d - c d)) dim
  if s < 0 then 0 else s

/-- `dot_e` (MeshingSmartTree.cpp:3083-3089). -/
def dotE (c p u : Nat → ℝ) (dim : Nat) : ℝ := sumDim (fun d => u d * (p d - c d)) dim

/-- One node (MeshingSmartTree.cpp:3070-3102): `neighbor_seed` and `spoke_length`. -/
noncomputable def trimVisit (P : PointStore ℝ) (elig : Nat → Bool) (c o u : Nat → ℝ) (i : Nat) (r : Nat × WithTop ℝ) : Nat × WithTop ℝ :=
  let e := dotE c (P.pts i) u P.dim
  let t := dotO c (P.pts i) o P.dim / e
  if elig i = true ∧ (1e-8 < |e| ∧ 0 < e) ∧ -1e-8 < t ∧ (t : WithTop ℝ) < r.2 then (i, (t : WithTop ℝ)) else r

/-- `H < 2 * (spoke_length + origin_dst) + tol` (MeshingSmartTree.cpp:3108, 3126, 3135). -/
def inReach (H dst tol : ℝ) : WithTop ℝ → Prop
  | none => True
  | some b => H < 2 * (b + dst) + tol

/-- `kd_tree_trim_spoke` (MeshingSmartTree.cpp:3062-3146).  `elig` is the test for marks and for involved seeds. -/
noncomputable def kdTrim (P : PointStore ℝ) (ln : Links) (elig : Nat → Bool) (c o u : Nat → ℝ) (dst : ℝ) : Nat → Nat → Nat → Nat × WithTop ℝ → Option (Nat × WithTop ℝ)
  | 0, _, _, _ => none
  | fuel + 1, d, i, r =>
    if i < P.num ∧ d < P.dim then
      let r := trimVisit P elig c o u i r
      let H := |P.pts i d - o d|
      let d' := nextDim P.dim d
      let checkRight := ln.right i ≠ i ∧ (inReach H dst 1e-8 r.2 ∨ P.pts i d < o d)
      let checkLeft := ln.left i ≠ i ∧ (inReach H dst 1e-8 r.2 ∨ o d < P.pts i d)
      if checkRight ∧ checkLeft then
        if P.pts i d < o d then
          match kdTrim P ln elig c o u dst fuel d' (ln.right i) r with
          | none => none
          | some r => if inReach H dst 1e-10 r.2 then kdTrim P ln elig c o u dst fuel d' (ln.left i) r else some r
        else
          match kdTrim P ln elig c o u dst fuel d' (ln.left i) r with
          | none => none
          | some r => if inReach H dst 1e-10 r.2 then kdTrim P ln elig c o u dst fuel d' (ln.right i) r else some r
      else if checkRight then kdTrim P ln elig c o u dst fuel d' (ln.right i) r
      else if checkLeft then kdTrim P ln elig c o u dst fuel d' (ln.left i) r
      else some r
    else none

/-- `kd_tree_trim_spoke` from the root (MeshingSmartTree.cpp:1040, 1083). -/
noncomputable def trimRoot (P : PointStore ℝ) (ln : Links) (elig : Nat → Bool) (c o u : Nat → ℝ) (r : Nat × WithTop ℝ) : Option (Nat × WithTop ℝ) :=
  match ln.origin with
  | none => none
  | some i => kdTrim P ln elig c o u (dstOf Rounding.exact o c P.dim) P.num 0 i r

/-- `!_marked_only || _marked[node_index]`, and not one of the involved seeds (MeshingSmartTree.cpp:3070-3079). -/
def trimElig (mark : Nat → Bool) (involved : List Nat) (i : Nat) : Bool := mark i && decide (i ∉ involved)

/-- `trim_spoke` (MeshingSmartTree.cpp:1021-1089).  `mark` is `!_marked_only || _marked[i]`.  With an unbounded spoke all distances of the verification are infinite: `iclosest` stays `_num_points`,
`hclosest` stays `DBL_MAX`, which is below `dst_seed`, and the spoke is trimmed again. -/
noncomputable def trimSpoke (P : PointStore ℝ) (ln : Links) (mark : Nat → Bool) (c : Nat → ℝ) (involved : List Nat) (o u : Nat → ℝ) (r : Nat × WithTop ℝ) : Option (Nat × WithTop ℝ) :=
  match trimRoot P ln (trimElig mark involved) c o u r with
  | none => none
  | some r1 =>
    if involved = [] then some r1
    else
      match r1 with
      | (nb, none) => trimRoot P ln (trimElig mark involved) c o u (nb, ⊤)
      | (nb, some b) =>
        let xend : Nat → ℝ := fun d => o d + b * u d
        match closestQuery Rounding.exact P ln mark xend false ⊤ with
        | none => none
        | some (ic, hc) =>
          if ic ∉ involved ∧ hc < ((dstOf Rounding.exact xend c P.dim - 1e-6 : ℝ) : WithTop ℝ) then trimRoot P ln (trimElig mark involved) c o u (nb, ⊤)
          else some (nb, (b : WithTop ℝ))

/-- An entry of `neighbors`, `neighbor_hits`, `neighbor_level`. -/
structure NbrRec where
  seed : Nat
  hits : Nat
  level : Nat

/-- `neighbor_hits[i]++` at the first entry with this seed, or a new entry (MeshingSmartTree.cpp:838-854); the arrays double when they are full (856-880), here a list. -/
def addHit (seed level : Nat) : List NbrRec → List NbrRec
  | [] => [⟨seed, 1, level⟩]
  | a :: l => if a.seed = seed then ⟨a.seed, a.hits + 1, a.level⟩ :: l else a :: addHit seed level l

/-- An entry of `spoke_points` and `spoke_neighbors`; `none` is `SIZE_MAX`.  For an unbounded spoke the "point" is its direction (MeshingSmartTree.cpp:822-826, 830-836). -/
structure SpokeRec where
  pt : Nat → ℝ
  nbr : Option Nat

/-- The spokes of one layer (MeshingSmartTree.cpp:812-882), with the directions drawn. -/
noncomputable def spokeLayer (P : PointStore ℝ) (ln : Links) (mark : Nat → Bool) (x : Nat → ℝ) (old : List Nat) (layer : Nat) : List (Nat → ℝ) → List NbrRec → Option (List NbrRec × List SpokeRec)
  | [], nbrs => some (nbrs, [])
  | u :: us, nbrs =>
    match trimSpoke P ln mark x old x u (P.num, ⊤) with
    | none => none
    | some (_, none) =>
      match spokeLayer P ln mark x old layer us nbrs with
      | none => none
      | some (nbrs, sp) => some (nbrs, ⟨u, none⟩ :: sp)
    | some (nb, some b) =>
      match spokeLayer P ln mark x old layer us (addHit nb (layer + 1) nbrs) with
      | none => none
      | some (nbrs, sp) => some (nbrs, ⟨fun d => x d + b * u d, some nb⟩ :: sp)

/-- The layers (MeshingSmartTree.cpp:810-897): the seeds found so far are left out in the next layer.  `spoke_points` is overwritten by each layer. -/
noncomputable def spokeLayers (P : PointStore ℝ) (ln : Links) (mark : Nat → Bool) (x : Nat → ℝ) : List (List (Nat → ℝ)) → Nat → List Nat → List NbrRec → List SpokeRec → Option (List NbrRec × List SpokeRec)
  | [], _, _, nbrs, sp => some (nbrs, sp)
  | us :: uss, layer, old, nbrs, _ =>
    match spokeLayer P ln mark x old layer us nbrs with
    | none => none
    | some (nbrs, sp) => spokeLayers P ln mark x uss (layer + 1) (nbrs.map NbrRec.seed) nbrs sp

/-- `SIZE_MAX`. -/
def sizeMax64 : Nat := 18446744073709551615

/-- `get_Voronoi_neighbors` (MeshingSmartTree.cpp:780-897 and 910-1018; the overloads at 707-725, 900-908 only leave out outputs): directions drawn for each layer. -/
noncomputable def voronoiNeighbors (P : PointStore ℝ) (ln : Links) (mark : Nat → Bool) (x : Nat → ℝ) (uss : List (List (Nat → ℝ))) : Option (List NbrRec × List SpokeRec) :=
  match closestQuery Rounding.exact P ln mark x false ⊤ with
  | none => none
  | some (ic, hc) =>
    if hc < ((1e-10 : ℝ) : WithTop ℝ) then spokeLayers P ln mark x uss 0 [ic] [⟨ic, sizeMax64, 0⟩] []
    else spokeLayers P ln mark x uss 0 [] [] []

/-- The loop of the overload that wants a number of neighbours (MeshingSmartTree.cpp:748-775). -/
noncomputable def wantedLoop (P : PointStore ℝ) (ln : Links) (mark : Nat → Bool) (x : Nat → ℝ) (want : Nat) : List (Nat → ℝ) → List Nat → Option (List Nat)
  | us, nbrs =>
    if nbrs.length < want then
      match us with
      | [] => none
      | u :: us =>
        match trimSpoke P ln mark x nbrs x u (P.num, ⊤) with
        | none => none
        | some (_, none) => wantedLoop P ln mark x want us nbrs
        | some (nb, some _) => wantedLoop P ln mark x want us (nbrs ++ [nb])
    else some nbrs

/-- `get_Voronoi_neighbors` for a number of neighbours (MeshingSmartTree.cpp:727-778). -/
noncomputable def wantedNeighbors (P : PointStore ℝ) (ln : Links) (mark : Nat → Bool) (x : Nat → ℝ) (want : Nat) (us : List (Nat → ℝ)) : Option (List Nat) :=
  match closestQuery Rounding.exact P ln mark x false ⊤ with
  | none => none
  | some (ic, hc) => wantedLoop P ln mark x want us (if hc < ((1e-10 : ℝ) : WithTop ℝ) then [ic] else [])

end VoroCrust
