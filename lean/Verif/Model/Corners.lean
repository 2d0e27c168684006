import Verif.Model.Spheres

/-! # Model of `MeshingVoroCrustSampler::generate_corner_spheres`

The distances to the non-smooth points of the two point clouds and the size prescribed by the input sizing function are parameters: `none` is an undefined query (an
empty cloud), `⊤` is `DBL_MAX` (no such point, or no sizing function).  Their own queries are covered by C06.
-/

namespace VoroCrust

open Classical

/-- `alpha_sz * h` with `alpha_sz = 0.4` (MeshingVoroCrustSampler.cpp:41, 1107, 1111, 1146). -/
noncomputable def scaleSz (h : WithTop ℝ) : WithTop ℝ := h.map fun a => 0.4 * a

/-- `if (r > b) r = b;` for a bound that may be `DBL_MAX`. -/
noncomputable def capAt (r : ℝ) (b : WithTop ℝ) : ℝ :=
  match b with
  | none => r
  | some b => if r > b then b else r

/-- The radius of a new corner sphere (MeshingVoroCrustSampler.cpp:1105-1125). -/
noncomputable def cornerRadius (surf edge size : WithTop ℝ) (rmax : ℝ) : ℝ :=
  let r : ℝ := match min (scaleSz surf) (scaleSz edge) with
    | none => rmax
    | some r => if r > rmax then rmax else r
  capAt r size

/-- The three distances of a corner. -/
structure CornerQueries where
  surf : (Nat → ℝ) → Option (WithTop ℝ)
  edge : (Nat → ℝ) → Option (WithTop ℝ)
  size : (Nat → ℝ) → Option (WithTop ℝ)

/-- `new_sphere` for the corner `x` (MeshingVoroCrustSampler.cpp:1095, 1104-1125). -/
noncomputable def newCorner (q : CornerQueries) (rmax : ℝ) (x : Nat → ℝ) : Option (Nat → ℝ) :=
  match q.surf x, q.edge x, q.size x with
  | some s, some e, some z => some (upd x 3 (cornerRadius s e z rmax))
  | _, _, _ => none

/-- The test for a redundant corner (MeshingVoroCrustSampler.cpp:1097-1102); `first` is `icorner == 0`. -/
noncomputable def redundantCorner (tol : ℝ) (first : Bool) (t : SmartTree ℝ) (x : Nat → ℝ) : Option Bool :=
  if first then some false
  else
    match closestQuery Rounding.exact { pts := t.pts, num := t.num, dim := 3, lt := realLt } t.links (fun _ => true) x false ⊤ with
    | none => none
    | some (_, h) => some (decide (h < (tol : WithTop ℝ)))

/-- The loop over the corners (MeshingVoroCrustSampler.cpp:1091-1136). -/
noncomputable def cornerLoop (rb : Nat → Nat → Bool) (q : CornerQueries) (tol rmax : ℝ) : Bool → List (Nat → ℝ) → SmartTree ℝ → Option (SmartTree ℝ)
  | _, [], t => some t
  | first, x :: xs, t =>
    match redundantCorner tol first t x with
    | none => none
    | some true => cornerLoop rb q tol rmax false xs t
    | some false =>
      match newCorner q rmax x with
      | none => none
      | some s =>
        match addTreePoint realLt 3 rb t s with
        | none => none
        | some t' => cornerLoop rb q tol rmax false xs t'

/-- The loop that limits each radius by the closest other corner (MeshingVoroCrustSampler.cpp:1138-1144): spheres `< n`. -/
noncomputable def limitCorners (ln : Links) (P : PointStore ℝ) : Nat → Option (PointStore ℝ)
  | 0 => some P
  | i + 1 =>
    match limitCorners ln P i with
    | none => none
    | some Q =>
      match closestQuery Rounding.exact Q ln (fun k => decide (k ≠ i)) (Q.pts i) false ⊤ with
      | none => none
      | some (_, h) => some (setAttr Q i 0 (capAt (radius Q i) (scaleSz h)))

/-- `generate_corner_spheres` (MeshingVoroCrustSampler.cpp:1074-1150): the spheres and the tree.  Without corners the tree stays empty. -/
noncomputable def cornerSpheres (rb : Nat → Nat → Bool) (q : CornerQueries) (tol rmax L : ℝ) (corners : List (Nat → ℝ)) : Option (PointStore ℝ × Links) :=
  match cornerLoop rb q tol rmax true corners (SmartTree.empty (fun _ _ => 0) id id) with
  | none => none
  | some t =>
    match limitCorners t.links { pts := t.pts, num := t.num, dim := 3, lt := realLt } t.num with
    | none => none
    | some P =>
      match lipBrute L 2 P with
      | none => none
      | some (Q, _) => some (Q, t.links)

end VoroCrust
