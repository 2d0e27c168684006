import Verif.Props.MeshVolume
import Verif.Props.MeshCase

/-!
# C103: a case

The five seeds of the case of C102.  The cell of the first one is a tetrahedron of volume 48.6.
-/

namespace VoroCrust.CellRun

open Classical MeasureTheory

theorem meshSeeds_tetra : voronoiCell meshSeeds 0 = tetra ![9 / 4, 9 / 5, -18 / 5] ![9 / 4, -9 / 5, 18 / 5] ![-9 / 4, 18 / 5, 9 / 5] ![-9 / 4, -18 / 5, -9 / 5] := by
  ext z
  obtain ⟨q0, q1, q2, q3, q4⟩ := meshSeeds_sq (point3 z)
  have p0 : point3 z 0 = z 0 := by simp [point3]
  have p1 : point3 z 1 = z 1 := by simp [point3]
  have p2 : point3 z 2 = z 2 := by simp [point3]
  rw [p0, p1, p2] at q0 q1 q2 q3 q4
  constructor
  · intro h
    have h1 := dist_mono.1 (h 1 (by norm_num [meshSeeds]))
    have h2 := dist_mono.1 (h 2 (by norm_num [meshSeeds]))
    have h3 := dist_mono.1 (h 3 (by norm_num [meshSeeds]))
    have h4 := dist_mono.1 (h 4 (by norm_num [meshSeeds]))
    rw [q0] at h1 h2 h3 h4
    rw [q1] at h1
    rw [q2] at h2
    rw [q3] at h3
    rw [q4] at h4
    refine ⟨(9 - (-4 * z 0 + 2 * z 1 - 4 * z 2)) / 36, (9 - (4 * z 0 - 4 * z 1 - 2 * z 2)) / 36, (9 - (4 * z 0 + 4 * z 1 + 2 * z 2)) / 36, by linarith, by linarith, by linarith, by linarith, fun k => ?_⟩
    fin_cases k <;> simp <;> ring
  · rintro ⟨x, y, w, hx, hy, hw, hs, hz⟩
    have z0 := hz 0
    have z1 := hz 1
    have z2 := hz 2
    simp at z0 z1 z2
    intro j hj
    have hj : j < 5 := hj
    refine dist_mono.2 ?_
    interval_cases j
    · exact le_refl _
    · rw [q0, q1, z0, z1, z2]; nlinarith
    · rw [q0, q2, z0, z1, z2]; nlinarith
    · rw [q0, q3, z0, z1, z2]; nlinarith
    · rw [q0, q4, z0, z1, z2]; nlinarith

/-- Not vacuous: the hypotheses of `C103_file_volumes` hold for the five seeds; the file has one cell, and its volume is 48.6. -/
theorem volume_case : ∃ F mesh cf k m file c, voroMesh meshSeeds F F = some (some mesh) ∧ cellFaces meshSeeds.length (regionAt meshSeeds) mesh.pairs = some (cf, k, m) ∧ saveVcg meshSeeds mesh (listOf cf k) = some file ∧
    file.cells = [c] ∧ c.id = 1 ∧ c.region = 1 ∧ c.volume = 48.6 := by
  have hin : InnerSeed meshSeeds 0 := ⟨_, rfl, by norm_num⟩
  obtain ⟨F, hF⟩ := C103_file_volumes meshSeeds meshSeeds ⟨rfl, fun i s t h1 h2 => by rw [h1] at h2; obtain rfl := Option.some.inj h2; exact ⟨rfl, Iff.rfl⟩⟩ meshSeeds_size meshSeeds_apart meshSeeds_clear ⟨0, hin⟩ meshSeeds_cell
  obtain ⟨mesh, cf, k, m, file, e1, -, e2, e3, hv⟩ := hF F F (le_refl _) (le_refl _)
  obtain ⟨c, hc, hid, -, hreg, hnn, hvol⟩ := hv.cell 0 _ rfl (by norm_num)
  have hlen : file.cells.length = 1 := by
    rw [hv.cells]
    simp [meshSeeds, SeedRec.inside]
  have hp : placeInside meshSeeds 0 = 0 := by simp [placeInside]
  rw [hp] at hc hid
  refine ⟨F, mesh, cf, k, m, file, c, e1, e2, e3, ?_, hid, hreg, ?_⟩
  · obtain ⟨c', hc'⟩ := List.length_eq_one_iff.1 hlen
    rw [hc'] at hc ⊢
    simpa using hc
  · rw [meshSeeds_tetra, tetra_volume] at hvol
    have hd : |det3 (![9 / 4, -9 / 5, 18 / 5] - ![9 / 4, 9 / 5, -18 / 5]) (![-9 / 4, 18 / 5, 9 / 5] - ![9 / 4, 9 / 5, -18 / 5]) (![-9 / 4, -18 / 5, -9 / 5] - ![9 / 4, 9 / 5, -18 / 5])| / 6 = (48.6 : ℝ) := by
      simp [det3]
      norm_num
    rw [hd] at hvol
    exact ((ENNReal.ofReal_eq_ofReal_iff (by norm_num) hnn).1 hvol).symm

end VoroCrust.CellRun
