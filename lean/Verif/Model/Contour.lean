import Mathlib.Data.Real.Basic
import Mathlib.Tactic.Linarith
import Mathlib.Tactic.NormNum

/-!
# Model of the contour plots (`MeshingVoroSpokes::plot_function` and `plot_function_slice`, MeshingVoroSpokes.cpp:422-795, 796-1172)

Arithmetic is exact, the values of the surrogate at the corners of the squares are given (evaluate_vps is the subject of `Verif.Model.Vps`), and the printing of the numbers to the file is left out: what is modelled is
the polygons, their colours and the placing on the page.  `none` is undefined behaviour.
-/

namespace VoroCrust

/-- `scale`, `shift_x` and `shift_y` (MeshingVoroSpokes.cpp:431-453, 804-826). -/
noncomputable def plotScale (xmin xmax ymin ymax : ℝ) : ℝ × ℝ × ℝ :=
  let lx := xmax - xmin
  let ly := ymax - ymin
  let sx := 6.5 / lx
  let sy := 9.0 / ly
  if sx < sy then (sx, 1.0 - xmin * sx, 0.5 * (11.0 - ly * sx) - ymin * sx)
  else (sy, 0.5 * (8.5 - lx * sy) - xmin * sy, 1.0 - ymin * sy)

/-- Where a point is on the page, in inches: `shift_x shift_y translate` and `x * scale y * scale lineto` (MeshingVoroSpokes.cpp:454, 716-720). -/
noncomputable def onPage (xmin xmax ymin ymax : ℝ) (p : ℝ × ℝ) : ℝ × ℝ :=
  let s := plotScale xmin xmax ymin ymax
  (s.2.1 + p.1 * s.1, s.2.2 + p.2 * s.1)

/-- `contours` (MeshingVoroSpokes.cpp:487-490, 837-840). -/
noncomputable def contourLevels (fmin fmax : ℝ) (n : Nat) : List ℝ :=
  (fmin - 2 * (fmax - fmin)) :: ((List.range n).map fun i : Nat => fmin + 1.0 / (n : ℝ) * (i : ℝ) * (fmax - fmin)) ++ [fmax + 2 * (fmax - fmin)]

/-- `(fo > contour && f1 < contour) || (fo < contour && f1 > contour)` (MeshingVoroSpokes.cpp:541). -/
def Crosses (c a b : ℝ) : Prop := (a > c ∧ b < c) ∨ (a < c ∧ b > c)

open Classical in
/-- One side of the square, from a corner of value `a` to a corner of value `b` at the distance `s` (MeshingVoroSpokes.cpp:537-579, and the same text for the other three sides up to 709 and in the slice 903-1081): the
distances from the first corner of the points that are appended. -/
noncomputable def sidePoints (cm c s a b : ℝ) : List ℝ :=
  if a ≥ cm - 1e-10 ∧ a < c + 1e-10 then
    0 :: (if Crosses c a b then [s * (c - a) / (b - a)] else if Crosses cm a b then [s * (cm - a) / (b - a)] else [])
  else if Crosses cm a b then
    let hm := s * (cm - a) / (b - a)
    let h := if Crosses c a b then s * (c - a) / (b - a) else hm
    let hm' := if h < hm then h else hm
    let h' := if h < hm then hm else h
    hm' :: (if h' - hm' > 1e-10 then [h'] else [])
  else if Crosses c a b then [s * (c - a) / (b - a)]
  else []

/-- The polygon of a band in a square (MeshingVoroSpokes.cpp:533-709): the sides moving right, up, left and down. -/
noncomputable def bandPolygon (cm c xo yo sx sy fo f1 f2 f3 : ℝ) : List (ℝ × ℝ) :=
  ((sidePoints cm c sx fo f1).map fun h => (xo + h, yo)) ++ ((sidePoints cm c sy f1 f2).map fun h => (xo + sx, yo + h))
    ++ ((sidePoints cm c sx f2 f3).map fun h => (xo + sx - h, yo + sy)) ++ ((sidePoints cm c sy f3 fo).map fun h => (xo, yo + sy - h))

/-- `gs` (MeshingVoroSpokes.cpp:715). -/
noncomputable def bandGrey (icont num : Nat) : ℝ := 1.0 - (icont : ℝ) * 1.0 / (num : ℝ)

/-- `r`, `g` and `b` (MeshingVoroSpokes.cpp:731-747). -/
noncomputable def bandColour (gs : ℝ) : ℝ × ℝ × ℝ :=
  (if gs < 0.25 then 1.0 else if gs < 0.5 then 1.0 - 16.0 * (gs - 0.25) * (gs - 0.25) else 0.0,
   if gs < 0.25 then gs / 0.25 else if gs < 1.0 - 0.25 then 1.0 else 1.0 / (1.0 - (1.0 - 0.25)) - gs / (1.0 - (1.0 - 0.25)),
   if gs < 0.5 then 0.0 else if gs < 0.75 then 1.0 - 16.0 * (gs - 0.75) * (gs - 0.75) else 1.0)

/-- What is drawn in one square: for each band with at least two points, the polygon and its colour (MeshingVoroSpokes.cpp:526-752).  The bands are `contours[icont - 1]`, `contours[icont]`. -/
noncomputable def squareBands (levels : List ℝ) (xo yo sx sy fo f1 f2 f3 : ℝ) : List (List (ℝ × ℝ) × (ℝ × ℝ × ℝ)) :=
  (List.range (levels.length - 1)).filterMap fun k =>
    match levels[k]?, levels[k + 1]? with
    | some cm, some c =>
      let p := bandPolygon cm c xo yo sx sy fo f1 f2 f3
      if p.length > 1 then some (p, bandColour (bandGrey (k + 1) levels.length)) else none
    | _, _ => none

/-- `fo` in `plot_function` (MeshingVoroSpokes.cpp:506-508): the estimate of the error for an index that is not that of a function.  `fx` has `_num_functions` entries. -/
def plotValue {V : Type} (fx : List V) (err : V) (k : Nat) : Option V := if k < fx.length then fx[k]? else some err

/-- `fo`, `f1`, `f2`, `f3` in `plot_function_slice` (MeshingVoroSpokes.cpp:848, 860-882): the first is read without a test of the index. -/
def sliceValues {V : Type} (zero : V) (f0 f1 f2 f3 : List V) (k : Nat) : Option (V × V × V × V) :=
  match f0[k]? with
  | none => none
  | some a =>
    let other := fun (l : List V) => if k < l.length then l[k]? else some zero
    match other f1, other f2, other f3 with
    | some b, some c, some d => some (a, b, c, d)
    | _, _, _ => none

/-- `dart = new double[2]; sample_uniformly_from_box(_num_dim, ..., dart)` (MeshingVoroSpokes.cpp:468-474): a list of numbers is written to an array of two. -/
def writeDart {V : Type} (dart : List V) : List V → Nat → Option (List V)
  | [], _ => some dart
  | v :: vs, i => if i < dart.length then writeDart (dart.set i v) vs (i + 1) else none

end VoroCrust
