import Verif.Model.Front
import Verif.Model.EdgeDelaunay

/-!
# Model of the stages after the surface seeds

`MeshingVoroCrust::generate_interior_seeds` (MeshingVoroCrust.cpp:307-617) as a whole: seeds on sharp edges, imposed monitoring points, interior seeds, removal of seeds near imposed points, and
generated monitoring points.  Simplifications: those of the stages; the copies of the trees into arrays (315-394) are lists of records, files and timings are left out.
-/

namespace VoroCrust

/-- The random numbers and the schedule of a run. -/
structure RunDraws where
  vs : Nat → Bool → List (Nat → ℝ)
  ys : Nat → Bool → List (ℝ × ℝ)
  split : Nat → Nat
  sched : List Nat
  inputs : List RoundInput
  us : Nat → ℝ

/-- What a run leaves: the seeds of `seeds.csv`, the points of `monitoring_points_closest_seeds.csv` and those of `monitoring_points.csv`. -/
structure RunResult where
  seeds : List SeedRec
  moved : List (Nat → ℝ)
  points : List SeedRec

/-- Imposing the points of `monitoring_points.csv`, if asked to (MeshingVoroCrust.cpp:418-440). -/
noncomputable def imposeStage (seeds : List SeedRec) (F : Features) (L : ℝ) (imposed : Option (List (Nat → ℝ))) (D : RunDraws) : Option (List SeedRec) :=
  match imposed with
  | none => some seeds
  | some pts => imposeSeeds seeds F L pts D.split D.sched

/-- After the front (MeshingVoroCrust.cpp:444-613): `n` surface seeds, `crit` seeds after the sharp edges, `m` after the imposed ones.  Points are generated only if none are imposed (433). -/
noncomputable def finishSeeds (ρ : ℝ → ℝ) (n crit m : Nat) (imposed : Option (List (Nat → ℝ))) (generate : Bool) (us : Nat → ℝ) (seeds : List SeedRec) : Option RunResult :=
  match imposed with
  | some pts =>
    match imposeMonitoring (crit + (m - n)) seeds pts with
    | none => none
    | some (out, moved) => some ⟨out, moved, []⟩
  | none =>
    if generate then
      match monitoringPoints ρ n seeds ((List.range (seeds.length - n)).map us) with
      | none => none
      | some ps => some ⟨seeds, [], ps⟩
    else some ⟨seeds, [], []⟩

/-- `MeshingVoroCrust::generate_interior_seeds` (MeshingVoroCrust.cpp:307-617); `some none` when the given rounds do not suffice. -/
noncomputable def interiorRun (ρ : ℝ → ℝ) (F : Features) (L rmax : ℝ) (lipFuel threads : Nat) (imposed : Option (List (Nat → ℝ))) (generate : Bool) (D : RunDraws) (seeds : List SeedRec) :
    Option (Option RunResult) :=
  match ensureDelaunay seeds F L lipFuel D.vs D.ys with
  | none => none
  | some crit =>
    match imposeStage crit F L imposed D with
    | none => none
    | some all =>
      match generateInterior ρ F L rmax lipFuel threads D.inputs all with
      | none => none
      | some none => some none
      | some (some out) => (finishSeeds ρ seeds.length crit.length all.length imposed generate D.us out).map some

end VoroCrust
