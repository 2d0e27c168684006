import Verif.Model.VoroMesh

/-!
# Model of `MeshingVoronoiMesher::save_vcg_file_pflotran` (MeshingVoronoiMesher.cpp:2426-2558)

Exact real arithmetic; the result is the lists of lines, not their text.  `none` is undefined behaviour: an index out of range, or the integer division by zero at the end (2554).  Not modelled: the summary on the console
(least, largest and average volume) apart from that division.
-/

namespace VoroCrust

open Classical

/-- One line of the section `CELLS`. -/
structure VcgCell where
  id : Nat
  x : Nat → ℝ
  volume : ℝ
  region : Nat

/-- One line of the section `CONNECTIONS`; `normal` is `none` when its length is 0 and the coordinates are NaN. -/
structure VcgConn where
  a : Nat
  b : Nat
  mid : Nat → ℝ
  area : ℝ
  normal : Option (Nat → ℝ)

/-- The file. -/
structure VcgFile where
  numCells : Nat
  cells : List VcgCell
  numConns : Nat
  conns : List VcgConn

/-- `seed_new_index` and `num_meshed_cells` (MeshingVoronoiMesher.cpp:2434-2444) for the first `k` of the `n` seeds. -/
def vcgIndex (n : Nat) (xs : List SeedRec) : Nat → (Nat → Nat) × Nat
  | 0 => (fun _ => n, 0)
  | k + 1 =>
    match xs[k]? with
    | none => vcgIndex n xs k
    | some s => if s.region = 0 then (upd (vcgIndex n xs k).1 k n, (vcgIndex n xs k).2) else (upd (vcgIndex n xs k).1 k (vcgIndex n xs k).2, (vcgIndex n xs k).2 + 1)

/-- The vector product (MeshingVoronoiMesher.cpp:2460-2472). -/
def crossAt (o p q : Nat → ℝ) : Nat → ℝ := fun d =>
  if d = 0 then (p 1 - o 1) * (q 2 - o 2) - (p 2 - o 2) * (q 1 - o 1)
  else if d = 1 then (p 2 - o 2) * (q 0 - o 0) - (p 0 - o 0) * (q 2 - o 2)
  else (p 0 - o 0) * (q 1 - o 1) - (p 1 - o 1) * (q 0 - o 0)

/-- Length. -/
noncomputable def length3 (n : Nat → ℝ) : ℝ := Real.sqrt (n 0 * n 0 + n 1 * n 1 + n 2 * n 2)

/-- A vertex of the mesh. -/
def VMesh.vertex (M : VMesh) (v : Nat) : Option (Nat → ℝ) := if v < M.nv then M.vertices v else none

/-- The loop over the corners: triangles with the first corner (MeshingVoronoiMesher.cpp:2449-2474). -/
noncomputable def fanArea (M : VMesh) (o : Nat) : List Nat → ℝ → Option ℝ
  | a :: b :: r, acc =>
    match M.vertex o, M.vertex a, M.vertex b with
    | some o', some a', some b' => fanArea M o (b :: r) (acc + 0.5 * length3 (crossAt o' a' b'))
    | _, _, _ => none
  | _, acc => some acc

/-- The area of a face. -/
noncomputable def faceArea (M : VMesh) (g : MeshFace) : Option ℝ :=
  match g.verts with
  | [] => some 0
  | o :: r => fanArea M o r 0

/-- Half the distance of the two seeds (MeshingVoronoiMesher.cpp:2476-2481). -/
noncomputable def faceHeight (xs : List SeedRec) (g : MeshFace) : Option ℝ :=
  match xs[g.seed]?, xs[g.nbr]? with
  | some s, some t => some (0.5 * Real.sqrt (distSq3 s.x t.x))
  | _, _ => none

/-- The face of an index. -/
def VMesh.face (M : VMesh) (k : Nat) : Option MeshFace := if k < M.nf then M.faces k else none

/-- `face_area_height[2 * k]` and `[2 * k + 1]` (MeshingVoronoiMesher.cpp:2446-2483). -/
noncomputable def areaHeight (xs : List SeedRec) (M : VMesh) (k : Nat) : Option (ℝ × ℝ) :=
  match M.face k with
  | none => none
  | some g =>
    match faceArea M g, faceHeight xs g with
    | some a, some h => some (a, h)
    | _, _ => none

/-- The volume of a cell from its faces (MeshingVoronoiMesher.cpp:2492-2497). -/
noncomputable def cellVolume (xs : List SeedRec) (M : VMesh) : List Nat → ℝ → Option ℝ
  | [], acc => some acc
  | k :: ks, acc =>
    match areaHeight xs M k with
    | none => none
    | some (a, h) => cellVolume xs M ks (acc + a * h / 3)

/-- The section `CELLS`, the first `k` seeds (MeshingVoronoiMesher.cpp:2486-2506). -/
noncomputable def vcgCells (xs : List SeedRec) (M : VMesh) (cf : Nat → List Nat) (new : Nat → Nat) : Nat → Option (List VcgCell)
  | 0 => some []
  | k + 1 =>
    match vcgCells xs M cf new k, xs[k]? with
    | some l, some s =>
      if s.region = 0 then some l
      else
        match cellVolume xs M (cf k) 0 with
        | none => none
        | some v => some (l ++ [⟨new k + 1, s.x, v, s.region⟩])
    | _, _ => none

/-- The normal (MeshingVoronoiMesher.cpp:2519-2533). -/
noncomputable def unitNormal (x y : Nat → ℝ) : Option (Nat → ℝ) := if length3 (fun d => y d - x d) = 0 then none else some fun d => (y d - x d) / length3 fun d => y d - x d

/-- One line of the section `CONNECTIONS` (MeshingVoronoiMesher.cpp:2513-2540). -/
noncomputable def vcgConn (xs : List SeedRec) (M : VMesh) (new : Nat → Nat) (k : Nat) : Option VcgConn :=
  match M.face k, areaHeight xs M k with
  | some g, some (a, _) =>
    match xs[g.seed]?, xs[g.nbr]? with
    | some s, some t =>
      some ⟨new g.seed + 1, if t.region ≠ 0 then new g.nbr + 1 else new g.seed + 1, fun d => 0.5 * (t.x d + s.x d), a, unitNormal s.x t.x⟩
    | _, _ => none
  | _, _ => none

/-- The section `CONNECTIONS`, the first `k` faces. -/
noncomputable def vcgConns (xs : List SeedRec) (M : VMesh) (new : Nat → Nat) : Nat → Option (List VcgConn)
  | 0 => some []
  | k + 1 =>
    match vcgConns xs M new k, vcgConn xs M new k with
    | some l, some c => some (l ++ [c])
    | _, _ => none

/-- `save_vcg_file_pflotran` (MeshingVoronoiMesher.cpp:2426-2558).  The average number of connections is an integer division (2554). -/
noncomputable def saveVcg (xs : List SeedRec) (M : VMesh) (cf : Nat → List Nat) : Option VcgFile :=
  match vcgCells xs M cf (vcgIndex xs.length xs xs.length).1 xs.length, vcgConns xs M (vcgIndex xs.length xs xs.length).1 M.nf with
  | some l, some c => if (vcgIndex xs.length xs xs.length).2 = 0 then none else some ⟨(vcgIndex xs.length xs xs.length).2, l, M.nf, c⟩
  | _, _ => none

end VoroCrust
