import Verif.Model.Execute
import Verif.Model.Fans
import Verif.Model.InteriorRun
import Verif.Model.Explicit

/-! # Model of `MeshingVoroCrust::execute_vc` as a whole

MeshingVoroCrust.cpp:238-305: the sampling (`sampleModel`), the regions of the surface seeds, the interior seeds and the explicit mesh.  The trees are released on the way (281-288, 325-394), which is not modelled.
`none` is undefined behaviour, `some none` means that the fuel of a loop is used up.
-/

namespace VoroCrust

/-- The seeds and spheres as the region colouring sees them. -/
def fanEnvOf (Z : SphereSet) (up lo : SeedTree) : FanEnv := ⟨mergeSeedAttrs up lo, fun q => toV3 (mergedSeed up lo q), fun s => toV3 (Z.at s)⟩

/-- A tree made of `n` points one after the other, as for the spheres and the seeds at the start of `color_surface_seeds` (MeshingVoroCrustSampler.cpp:1665-1719). -/
noncomputable def collectPoints (rb : Nat → Nat → Bool) (n : Nat) (x : Nat → Nat → ℝ) : Option (SmartTree ℝ) :=
  addTreePoints realLt 3 rb ((List.range n).map x) (SmartTree.empty (fun _ _ => 0) id id)

/-- `color_surface_seeds` (MeshingVoroCrustSampler.cpp:1652-2328): the regions of the seeds and `num_subregions`.  Graph lists are as long as the capacity of their tree. -/
noncomputable def colorSurface (rb : Nat → Nat → Bool) (Z : SphereSet) (up lo : SeedTree) : Option ((Nat → Nat) × Nat) :=
  match collectPoints rb (Z.S.num + Z.E.num + Z.C.num) Z.at, collectPoints rb (up.tree.num + lo.tree.num) (mergedSeed up lo) with
  | some S, some T =>
    match linkSpheres S.num S.cap (mergeSeedAttrs up lo) 0 { rows := none, cap := 0 } with
    | none => none
    | some G =>
      match colourSpheres (fanEnvOf Z up lo) Z.S.num T.cap G (Z.S.num + Z.E.num) (fun _ => 0) { rows := none, cap := 0 } with
      | none => none
      | some (_, g) => colourSurfaceSeeds T.spheres T.links g
  | _, _ => none

/-- The arrays of the surface seeds: places, sizes `x[3]`, regions `attrib[5]` (MeshingVoroCrust.cpp:314-329). -/
noncomputable def seedArrays (up lo : SeedTree) (reg : Nat → Nat) : List SeedRec :=
  (List.range (up.tree.num + lo.tree.num)).map fun q => ⟨mergedSeed up lo q, mergedSeed up lo q 3, reg q⟩

/-- The arrays made of a tree of spheres or sizing points (MeshingVoroCrust.cpp:331-394). -/
noncomputable def recsOf (P : PointStore ℝ) : List SeedRec := (List.range P.num).map fun i => ⟨P.pts i, P.pts i 3, 0⟩

/-- The arrays of the spheres and of the sizing function, if there is one (MeshingVoroCrust.cpp:331-394). -/
noncomputable def featuresOf (Z : SphereSet) (size : Option STree) : Features :=
  ⟨recsOf Z.S, recsOf Z.E, recsOf Z.C, match size with | none => [] | some t => recsOf t.store⟩

/-- What the second part of a run depends on: the sizing function, the Lipschitz constant, `R_MAX`, threads, rounding, monitoring options, files wanted, random numbers and fuel. -/
structure MeshSetup where
  rb : Nat → Nat → Bool
  size : Option STree
  L : ℝ
  rmax : ℝ
  threads : Nat
  ρ : ℝ → ℝ
  flt : ℝ → ℝ
  imposed : Option (List (Nat → ℝ))
  generate : Bool
  vcg : Bool
  exo : Bool

/-- From the spheres and seeds of the surface to the files (MeshingVoroCrust.cpp:281-302). -/
noncomputable def meshModel (O : MeshSetup) (Z : SphereSet) (up lo : SeedTree) (D : RunDraws) (lf f' f : Nat) : Option (Option (RunResult × Option ExplicitRun)) :=
  match colorSurface O.rb Z up lo with
  | none => none
  | some (reg, _) =>
    match interiorRun O.ρ (featuresOf Z O.size) O.L O.rmax lf O.threads O.imposed O.generate D (seedArrays up lo reg) with
    | none => none
    | some none => some none
    | some (some out) =>
      if O.vcg || O.exo then
        match explicitMesh O.flt O.vcg O.exo (seedArrays up lo reg).length out.seeds f' f with
        | none => none
        | some none => some none
        | some (some R) => some (some (out, some R))
      else some (some (out, none))

/-- The spheres a sampling leaves. -/
noncomputable def Sampled.spheres (R : Sampled) : SphereSet := ⟨R.surf.tree.spheres, R.surf.tree.links, R.edge.tree.spheres, R.edge.tree.links, R.corner.store, R.corner.links⟩

/-- The options of the second part that come from the input of the first. -/
def MeshSetup.of (O : MeshSetup) (I : VcInput) : MeshSetup := { O with rb := I.rb, size := I.size, L := I.L, rmax := I.rmax, threads := I.T }

/-- `execute_vc` (MeshingVoroCrust.cpp:238-305); the destructor of the sampler (289) is `freeNormals`. -/
noncomputable def executeVc (I : VcInput) (O : MeshSetup) (D : RunDraws) (mps fuel lf f' f : Nat) : Option (Option (RunResult × Option ExplicitRun)) :=
  match sampleModel I mps fuel with
  | none => none
  | some none => some none
  | some (some R) =>
    match freeNormals R.found with
    | none => none
    | some _ => meshModel (O.of I) R.spheres R.up R.lo D lf f' f

end VoroCrust
