import Verif.Props.MeshGapCase
import Verif.Props.MeshGapVolume

/-!
# C103 for a cubic lattice
-/

namespace VoroCrust

open Classical MeasureTheory

/-- The cell of an inner seed of the lattice is a cube. -/
theorem lattice_cube {i : Nat} {a b c : ℤ} (hp : seedPos latticeSeeds i = mkSphere a b c 0) (hin : latticeInner (a, b, c) = true) :
    voronoiCell latticeSeeds i = Set.Icc ![(a : ℝ) - 1 / 2, (b : ℝ) - 1 / 2, (c : ℝ) - 1 / 2] ![(a : ℝ) + 1 / 2, (b : ℝ) + 1 / 2, (c : ℝ) + 1 / 2] := by
  have hd : ∀ (u : Nat → ℝ) (a b c : ℤ), distSq3 u (mkSphere a b c 0) = (u 0 - a) ^ 2 + (u 1 - b) ^ 2 + (u 2 - c) ^ 2 := fun u a b c => by
    simp only [distSq3, mkSphere]
    norm_num
    ring
  ext z
  have p0 : point3 z 0 = z 0 := rfl
  have p1 : point3 z 1 = z 1 := rfl
  have p2 : point3 z 2 = z 2 := rfl
  constructor
  · intro hz
    obtain ⟨h0, h1, h2⟩ := lattice_cell hp hin hz
    rw [p0, abs_le] at h0
    rw [p1, abs_le] at h1
    rw [p2, abs_le] at h2
    refine ⟨fun k => ?_, fun k => ?_⟩ <;> fin_cases k <;> simp <;> linarith
  · rintro ⟨h1, h2⟩ y hy
    obtain ⟨a', b', c', -, -, -, e⟩ := lattice_get hy
    rw [hp, e, dist_mono, hd, hd]
    have sq : ∀ (x : ℝ) (m m' : ℤ), (m : ℝ) - 1 / 2 ≤ x → x ≤ (m : ℝ) + 1 / 2 → (x - m) ^ 2 ≤ (x - m') ^ 2 := fun x m m' l1 l2 => by
      rcases lt_trichotomy m m' with g | g | g
      · have : (m : ℝ) + 1 ≤ m' := by exact_mod_cast g
        nlinarith
      · rw [g]
      · have : (m' : ℝ) + 1 ≤ m := by exact_mod_cast g
        nlinarith
    have k0 := sq (z 0) a a' (by simpa using h1 0) (by simpa using h2 0)
    have k1 := sq (z 1) b b' (by simpa using h1 1) (by simpa using h2 1)
    have k2 := sq (z 2) c c' (by simpa using h1 2) (by simpa using h2 2)
    rw [p0, p1, p2]
    linarith

/-- Not vacuous: the file of the lattice lists eight cells, each of volume 1. -/
theorem lattice_file : ∃ F, ∀ fuel' fuel, F ≤ fuel' → F ≤ fuel → ∃ mesh cf k m file, voroMesh latticeSeeds fuel' fuel = some (some mesh) ∧ cellFaces latticeSeeds.length (regionAt latticeSeeds) mesh.pairs = some (cf, k, m) ∧
    saveVcg latticeSeeds mesh (listOf cf k) = some file ∧ file.cells.length = 8 ∧ ∀ i t, latticeSeeds[i]? = some t → t.region ≠ 0 → ∃ c, file.cells[placeInside latticeSeeds i]? = some c ∧ c.volume = 1 := by
  have hlen : latticeSeeds.length = 64 := by unfold latticeSeeds; rw [List.length_map]; decide +kernel
  obtain ⟨i0, hi0, hp0⟩ := lattice_at (mem_lattice.2 (by omega) : ((0 : ℤ), (0 : ℤ), (0 : ℤ)) ∈ latticePoints)
  have hin : InnerSeed latticeSeeds i0 := by
    obtain ⟨a, b, c, -, -, h1, h2⟩ := lattice_get hi0
    rw [hp0] at h2
    have e0 := congrFun h2 0
    have e1 := congrFun h2 1
    have e2 := congrFun h2 2
    simp only [mkSphere] at e0 e1 e2
    norm_num at e0 e1 e2
    have f0 : a = 0 := by exact_mod_cast e0.symm
    have f1 : b = 0 := by exact_mod_cast e1.symm
    have f2 : c = 0 := by exact_mod_cast e2.symm
    refine ⟨_, h1, ?_⟩
    rw [f0, f1, f2]
    simp [latticeSeed, latticeInner]
  obtain ⟨F, hF⟩ := C103_grid latticeSeeds latticeSeeds ⟨rfl, fun i s t h1 h2 => by rw [h1] at h2; obtain rfl := Option.some.inj h2; exact ⟨rfl, Iff.rfl⟩⟩ (fun s hs => by
    unfold latticeSeeds at hs
    obtain ⟨p, -, rfl⟩ := List.mem_map.1 hs
    simp [latticeSeed]) lattice_grid lattice_apart (few_nearest (by omega)) ⟨i0, hin⟩ lattice_bound
  refine ⟨F, fun fuel' fuel h1 h2 => ?_⟩
  obtain ⟨mesh, cf, k, m, file, e1, -, e2, e3, e4⟩ := hF fuel' fuel h1 h2
  refine ⟨mesh, cf, k, m, file, e1, e2, e3, ?_, fun i t hi hr => ?_⟩
  · rw [e4.cells]
    have : (fun p : ℤ × ℤ × ℤ => SeedRec.inside (latticeSeed p)) = latticeInner := by
      funext p
      unfold SeedRec.inside latticeSeed
      cases h : latticeInner p <;> simp
    unfold latticeSeeds
    rw [List.countP_map]
    show latticePoints.countP (fun p : ℤ × ℤ × ℤ => SeedRec.inside (latticeSeed p)) = 8
    rw [this]
    decide +kernel
  · obtain ⟨c, h1, -, -, -, h2, h3⟩ := e4.cell i t hi hr
    refine ⟨c, h1, ?_⟩
    obtain ⟨x, y, z, q1, q2, -⟩ := lattice_inner hi hr
    rw [lattice_cube q1 q2, Real.volume_Icc_pi] at h3
    simp [Fin.prod_univ_three] at h3
    norm_num at h3
    have := h3.symm
    rwa [ENNReal.ofReal_eq_one] at this

end VoroCrust
