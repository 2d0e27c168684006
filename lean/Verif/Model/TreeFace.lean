import Mathlib.Analysis.SpecialFunctions.Trigonometric.Basic

/-!
# Model of the construction of a Voronoi face in the tree

`get_3d_Voronoi_face` (MeshingSmartTree.cpp:1315-1923) collects the seeds that bound the face between two seeds: five random spokes in the plane of the face are trimmed, the seeds found are ordered by their angle, gaps that are too
wide are closed, and every corner is tested with a further spoke.  What the loop (1551-1869) does with the answers of the geometric routines is modelled; the answers are a parameter.  The two bases and the tests for a face point on an
edge (1325-1539) come before the loop.
-/

namespace VoroCrust

/-- What the loop asks for: random directions in the plane of the face (1559-1563), the opposite direction (1568), the direction in the middle of a gap (1677-1681), the direction of a corner and its distance (1774-1784), `trim_spoke` with the
seeds that are left out besides the two of the face (`none` is a spoke of length `DBL_MAX`), the angle of a seed (1648-1660; a real number here, `DBL_MAX` for a seed on the axis is left out), and the order by angles (1665). -/
structure FaceGeom (D : Type) where
  dart : Nat → D
  flip : D → D
  between : Nat → Nat → D
  toCorner : Nat → Nat → D
  cornerDist : Nat → Nat → ℝ
  trim : List Nat → D → Option (Nat × ℝ)
  ang : Nat → ℝ
  sort : List Nat → List Nat

/-- The end of the function: a read of an index that was never set; no face because a spoke is not stopped, with the number of corners left from an earlier round; the warning at 1842-1857; the seeds around the face. -/
inductive FaceEnd
  | undefined
  | unbounded (corners : Nat)
  | failed
  | done (ring : List Nat)

/-- What the test of the gaps gives (1667-1726). -/
inductive GapEnd
  | fine
  | unbounded
  | add (k : Nat)
  | wrong (k : Nat)

/-- The angle from one seed to the next (1672-1673, 1705-1706). -/
noncomputable def gapAngle (a b : ℝ) : ℝ := if b - a < 0 then b - a + 2 * Real.pi else b - a

/-- The loop over the gaps (MeshingSmartTree.cpp:1669-1726); `im` is the seed before the first of the list. -/
noncomputable def gapScan {D : Type} (G : FaceGeom D) : Nat → List Nat → GapEnd
  | _, [] => .fine
  | im, i :: l =>
    if gapAngle (G.ang im) (G.ang i) > Real.pi - 1e-5 then
      match G.trim [im, i] (G.between im i) with
      | none => .unbounded
      | some (k, _) =>
        if gapAngle (G.ang im) (G.ang k) < 1e-10 ∨ gapAngle (G.ang im) (G.ang k) > gapAngle (G.ang im) (G.ang i) - 1e-10 then .wrong k else .add k
    else gapScan G i l

/-- Two angles that are taken for the same (1746, 1805). -/
def sameAngle (a b : ℝ) : Prop := |a - b| < 1e-5 ∨ |(|a - b|) - 2 * Real.pi| < 1e-5

open Classical in
/-- The filter from the second seed on (MeshingSmartTree.cpp:1741-1758): `p` is the seed before. -/
noncomputable def ringTail {D : Type} (G : FaceGeom D) : Nat → List Nat → List Nat
  | _, [] => []
  | p, i :: l => if sameAngle (G.ang i) (G.ang p) then ringTail G p l else i :: ringTail G i l

open Classical in
/-- The filter at the first seed (MeshingSmartTree.cpp:1741-1758), which is compared with the last. -/
noncomputable def ringHead {D : Type} (G : FaceGeom D) : List Nat → List Nat
  | [] => []
  | i :: l => if sameAngle (G.ang i) (G.ang ((i :: l).getLast (by simp))) then ringHead G l else i :: ringTail G i l

/-- What the test of the corners gives (1763-1860). -/
inductive CornerEnd
  | undefined
  | fine
  | failed
  | add (k : Nat)

open Classical in
/-- The loop over the corners (MeshingSmartTree.cpp:1763-1860).  `last` is `joint_neighbor_seed`, which `trim_spoke` sets where it stops the spoke; it is declared without a value in every round (1553). -/
noncomputable def cornerScan {D : Type} (G : FaceGeom D) (ring : List Nat) : Option Nat → Nat → List Nat → CornerEnd
  | _, _, [] => .fine
  | last, im, i :: l =>
    let t := G.trim [im, i] (G.toCorner im i)
    let last := match t with
      | none => last
      | some (k, _) => some k
    match last with
    | none => .undefined
    | some k =>
      if ∃ j ∈ ring, sameAngle (G.ang j) (G.ang k) then cornerScan G ring (some k) i l
      else
        match t with
        | none => cornerScan G ring (some k) i l
        | some (_, len) =>
          if len > G.cornerDist im i - 1e-8 then cornerScan G ring (some k) i l
          else if k ∈ ring then .failed
          else .add k

/-- A spoke (MeshingSmartTree.cpp:1554-1637): the seeds found so far and the spoke that was trimmed, or `none` where it is not stopped.  `js` is the number of spokes before. -/
noncomputable def faceSpoke {D : Type} (G : FaceGeom D) (js : Nat) (dir : D) (nbrs : List Nat) : Option (List Nat) :=
  match G.trim [] dir with
  | none => none
  | some (k, _) =>
    if k ∈ nbrs ∧ js + 1 ≤ 5 then some nbrs
    else
      match nbrs with
      | [o] => if |G.ang k - G.ang o| < 1e-8 ∨ |G.ang k - G.ang o - 2 * Real.pi| < 1e-8 then some [o] else some [o, k]
      | l => some (l ++ [k])

/-- The loop (MeshingSmartTree.cpp:1551-1869).  The outer `none` is fuel used up; `n` is `num_face_corners`.  After the first round that orders the seeds there are two or more of them, and the direction is not used again. -/
noncomputable def faceLoop {D : Type} (G : FaceGeom D) : Nat → Nat → D → List Nat → Nat → Option FaceEnd
  | 0, _, _, _, _ => none
  | fuel + 1, js, dir, nbrs, n =>
    if js < 5 ∨ nbrs.length = 1 then
      let dir' := if js < 5 then G.dart js else G.flip dir
      match faceSpoke G js dir' nbrs with
      | none => some (.unbounded n)
      | some nbrs' => faceLoop G fuel (js + 1) dir' nbrs' n
    else
      let s := G.sort nbrs
      match s.getLast? with
      | none => some .undefined
      | some e =>
        let g := gapScan G e s
        match g with
        | .unbounded => some (.unbounded n)
        | .add k => faceLoop G fuel js (G.between e e) (s ++ [k]) n
        | _ =>
          let r := ringHead G s
          let last := match g with
            | .wrong k => some k
            | _ => none
          match r.getLast? with
          | none => some (.done [])
          | some e' =>
            match cornerScan G r last e' r with
            | .undefined => some .undefined
            | .failed => some .failed
            | .add k => faceLoop G fuel js (G.toCorner e' e') (r ++ [k]) r.length
            | .fine => some (.done r)

/-- The loop from its start (MeshingSmartTree.cpp:1541-1550, 1323). -/
noncomputable def treeFace {D : Type} (G : FaceGeom D) (fuel : Nat) : Option FaceEnd := faceLoop G fuel 0 (G.dart 0) [] 0

end VoroCrust
