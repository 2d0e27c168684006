import Verif.Props.MeshMain

/-!
# C102: a case

One inner seed and four others around it.
-/

namespace VoroCrust.CellRun

open Classical

/-- The five seeds, of which the first has a region. -/
noncomputable def meshSeeds : List SeedRec := [⟨cast (0, 0, 0), 50, 1⟩, ⟨cast (2, 2, 1), 50, 0⟩, ⟨cast (2, -2, -1), 50, 0⟩, ⟨cast (-2, 1, -2), 50, 0⟩, ⟨cast (-2, -1, 2), 50, 0⟩]

theorem meshSeeds_pos : ∀ i, i < 5 → seedPos meshSeeds i = cast (seeds.getD i (0, 0, 0)) := by
  intro i hi
  interval_cases i <;> rfl

theorem meshSeeds_sq (z : Nat → ℝ) : distSq3 z (seedPos meshSeeds 0) = z 0 ^ 2 + z 1 ^ 2 + z 2 ^ 2 ∧ distSq3 z (seedPos meshSeeds 1) = z 0 ^ 2 + z 1 ^ 2 + z 2 ^ 2 - 4 * z 0 - 4 * z 1 - 2 * z 2 + 9 ∧
    distSq3 z (seedPos meshSeeds 2) = z 0 ^ 2 + z 1 ^ 2 + z 2 ^ 2 - 4 * z 0 + 4 * z 1 + 2 * z 2 + 9 ∧ distSq3 z (seedPos meshSeeds 3) = z 0 ^ 2 + z 1 ^ 2 + z 2 ^ 2 + 4 * z 0 - 2 * z 1 + 4 * z 2 + 9 ∧
    distSq3 z (seedPos meshSeeds 4) = z 0 ^ 2 + z 1 ^ 2 + z 2 ^ 2 + 4 * z 0 + 2 * z 1 - 4 * z 2 + 9 := by
  have p0 := meshSeeds_pos 0 (by norm_num)
  have p1 := meshSeeds_pos 1 (by norm_num)
  have p2 := meshSeeds_pos 2 (by norm_num)
  have p3 := meshSeeds_pos 3 (by norm_num)
  have p4 := meshSeeds_pos 4 (by norm_num)
  simp only [seeds, List.getD_cons_zero, List.getD_cons_succ] at p0 p1 p2 p3 p4
  simp only [p0, p1, p2, p3, p4, distSq3, cast0, cast1, cast2]
  refine ⟨?_, ?_, ?_, ?_, ?_⟩ <;> norm_num <;> ring

theorem meshSeeds_bounded {z : Nat → ℝ} (hz : ∀ y, y < 5 → distSq3 z (seedPos meshSeeds 0) ≤ distSq3 z (seedPos meshSeeds y)) : euclid 3 z (seedPos meshSeeds 0) ≤ 40 := by
  obtain ⟨q0, q1, q2, q3, q4⟩ := meshSeeds_sq z
  have h1 := hz 1 (by norm_num)
  have h2 := hz 2 (by norm_num)
  have h3 := hz 3 (by norm_num)
  have h4 := hz 4 (by norm_num)
  rw [q0] at h1 h2 h3 h4
  rw [q1] at h1
  rw [q2] at h2
  rw [q3] at h3
  rw [q4] at h4
  have b0 : |z 0| ≤ 18 := abs_le.2 ⟨by linarith, by linarith⟩
  have b1 : |z 1| ≤ 18 := abs_le.2 ⟨by linarith, by linarith⟩
  have b2 : |z 2| ≤ 18 := abs_le.2 ⟨by linarith, by linarith⟩
  have c0 := sq_le_sq' (abs_le.1 b0).1 (abs_le.1 b0).2
  have c1 := sq_le_sq' (abs_le.1 b1).1 (abs_le.1 b1).2
  have c2 := sq_le_sq' (abs_le.1 b2).1 (abs_le.1 b2).2
  rw [← sqrt_distSq3, q0]
  exact Real.sqrt_le_iff.2 ⟨by norm_num, by linarith⟩

theorem meshSeeds_clear : VertexClear (seedPos meshSeeds) 5 := by
  intro a b c d y z ha hb hc hd hy ab ac ad bc bd cd ya yb yc yd e1 e2 e3 hmin
  obtain ⟨q0, q1, q2, q3, q4⟩ := meshSeeds_sq z
  have all : ∀ k, k < 5 → k ≠ y → euclid 3 z (seedPos meshSeeds a) = euclid 3 z (seedPos meshSeeds k) := by
    intro k hk hky
    have : k = a ∨ k = b ∨ k = c ∨ k = d := by omega
    rcases this with rfl | rfl | rfl | rfl
    · rfl
    · exact e1
    · exact e2
    · exact e3
  have sq : ∀ k, k < 5 → k ≠ y → distSq3 z (seedPos meshSeeds a) = distSq3 z (seedPos meshSeeds k) := fun k hk hky => by rw [distSq3_sq, distSq3_sq, all k hk hky]
  by_cases hy0 : y = 0
  · exfalso
    subst hy0
    have h1 := sq 1 (by norm_num) (by norm_num)
    have h2 := sq 2 (by norm_num) (by norm_num)
    have h3 := sq 3 (by norm_num) (by norm_num)
    have h4 := sq 4 (by norm_num) (by norm_num)
    have h0 := dist_mono.1 (hmin 0 (by norm_num))
    rw [q0] at h0
    rw [q1] at h1
    rw [q2] at h2
    rw [q3] at h3
    rw [q4] at h4
    linarith
  · have h0 := sq 0 (by norm_num) (Ne.symm hy0)
    have hfar : distSq3 z (seedPos meshSeeds y) = distSq3 z (seedPos meshSeeds a) + 36 := by
      rw [q0] at h0
      have hcase : y = 1 ∨ y = 2 ∨ y = 3 ∨ y = 4 := by omega
      rcases hcase with rfl | rfl | rfl | rfl
      · have h2 := sq 2 (by norm_num) (by norm_num)
        have h3 := sq 3 (by norm_num) (by norm_num)
        have h4 := sq 4 (by norm_num) (by norm_num)
        rw [q2] at h2; rw [q3] at h3; rw [q4] at h4; rw [q1]
        linarith
      · have h2 := sq 1 (by norm_num) (by norm_num)
        have h3 := sq 3 (by norm_num) (by norm_num)
        have h4 := sq 4 (by norm_num) (by norm_num)
        rw [q1] at h2; rw [q3] at h3; rw [q4] at h4; rw [q2]
        linarith
      · have h2 := sq 1 (by norm_num) (by norm_num)
        have h3 := sq 2 (by norm_num) (by norm_num)
        have h4 := sq 4 (by norm_num) (by norm_num)
        rw [q1] at h2; rw [q2] at h3; rw [q4] at h4; rw [q3]
        linarith
      · have h2 := sq 1 (by norm_num) (by norm_num)
        have h3 := sq 2 (by norm_num) (by norm_num)
        have h4 := sq 3 (by norm_num) (by norm_num)
        rw [q1] at h2; rw [q2] at h3; rw [q3] at h4; rw [q4]
        linarith
    have hb40 : euclid 3 z (seedPos meshSeeds 0) ≤ 40 := meshSeeds_bounded fun u hu => dist_mono.1 (by rw [← all 0 (by norm_num) (Ne.symm hy0)]; exact hmin u hu)
    rw [← all 0 (by norm_num) (Ne.symm hy0)] at hb40
    have hnn := euclid_nonneg 3 z (seedPos meshSeeds a)
    have hnn' := euclid_nonneg 3 z (seedPos meshSeeds y)
    rw [distSq3_sq, distSq3_sq] at hfar
    by_contra hlt
    push Not at hlt
    nlinarith

theorem meshSeeds_inner : ∀ i s, meshSeeds[i]? = some s → s.region ≠ 0 → i = 0 ∧ s.size = 50 := by
  intro i s hs hr
  have hi : i < 5 := (List.getElem?_eq_some_iff.1 hs).1
  interval_cases i <;> simp only [meshSeeds, List.getElem?_cons_zero, List.getElem?_cons_succ, Option.some.injEq] at hs <;> subst hs <;> simp at hr ⊢

theorem meshSeeds_size : ∀ s ∈ meshSeeds, 0 ≤ s.size := by
  intro s hs
  simp only [meshSeeds, List.mem_cons, List.not_mem_nil, or_false] at hs
  rcases hs with rfl | rfl | rfl | rfl | rfl <;> norm_num

theorem meshSeeds_apart : ∀ i j, i < meshSeeds.length → j < meshSeeds.length → i ≠ j → 2e-5 ≤ euclid 3 (seedPos meshSeeds i) (seedPos meshSeeds j) := by
  intro i j hi hj hij
  have hi : i < 5 := hi
  have hj : j < 5 := hj
  refine le_trans (by norm_num : (2e-5 : ℝ) ≤ 3) ?_
  refine le_of_sq_le_sq ?_ (euclid_nonneg 3 _ _)
  rw [← distSq3_sq]
  rw [meshSeeds_pos i hi, meshSeeds_pos j hj]
  unfold distSq3
  interval_cases i <;> interval_cases j <;> first | exact absurd rfl hij | (simp only [seeds, List.getD_cons_zero, List.getD_cons_succ, cast0, cast1, cast2]; norm_num)

theorem meshSeeds_cell : ∀ i s, meshSeeds[i]? = some s → s.region ≠ 0 → 1e-11 ≤ 2 * s.size ∧ ∃ M, (∀ m, m ≤ M → GeneralPos (seedPos meshSeeds) meshSeeds.length (seedPos meshSeeds i) (10 * (2 * s.size * 2 ^ (m + 1)))) ∧
    ∀ z, InVoronoi meshSeeds i z → 2 * euclid 3 z (seedPos meshSeeds i) < 2 * s.size * 2 ^ (M + 1) := by
  intro i s hs hr
  have hlen : meshSeeds.length = 5 := rfl
  obtain ⟨rfl, hz⟩ := meshSeeds_inner i s hs hr
  rw [hz]
  refine ⟨by norm_num, 0, fun m hm => ?_, fun z hz => ?_⟩
  · obtain rfl : m = 0 := by omega
    rw [hlen, show (10 * (2 * 50 * 2 ^ (0 + 1)) : ℝ) = 2000 by norm_num]
    exact general meshSeeds_pos
  · have := meshSeeds_bounded fun y hy => dist_mono.1 (hz y (by rw [hlen]; exact hy))
    norm_num
    linarith

/-- Not vacuous: the hypotheses of `C102_voronoi_mesh` hold for the five seeds; the mesh has a face between the first two. -/
theorem mesh_case : ∃ F mesh, voroMesh meshSeeds F F = some (some mesh) ∧ IsVoronoiMesh meshSeeds mesh ∧ ∃ k g, k < mesh.nf ∧ mesh.faces k = some g ∧ g.seed = 0 ∧ g.nbr = 1 ∧ IsVoronoiFace meshSeeds mesh g := by
  have hlen : meshSeeds.length = 5 := rfl
  have hreg := meshSeeds_inner
  obtain ⟨F, hF⟩ := C102_voronoi_mesh meshSeeds (by simp [meshSeeds]) meshSeeds_size meshSeeds_apart meshSeeds_clear meshSeeds_cell
  obtain ⟨mesh, e1, e2⟩ := hF F F (le_refl _) (le_refl _)
  refine ⟨F, mesh, e1, e2, ?_⟩
  have hin : InnerSeed meshSeeds 0 := ⟨_, rfl, by norm_num⟩
  let mid : Nat → ℝ := fun k => if k = 0 then 1 else if k = 1 then 1 else 1 / 2
  have hface : CommonFace meshSeeds 0 1 mid := by
    obtain ⟨q0, q1, q2, q3, q4⟩ := meshSeeds_sq mid
    have m0 : mid 0 = 1 := rfl
    have m1 : mid 1 = 1 := rfl
    have m2 : mid 2 = 1 / 2 := rfl
    rw [m0, m1, m2] at q0 q1 q2 q3 q4
    refine ⟨fun y hy => dist_mono.2 ?_, le_antisymm (dist_mono.2 ?_) (dist_mono.2 ?_)⟩
    · rw [hlen] at hy
      interval_cases y
      · exact le_refl _
      · rw [q0, q1]; norm_num
      · rw [q0, q2]; norm_num
      · rw [q0, q3]; norm_num
      · rw [q0, q4]; norm_num
    · rw [q0, q1]; norm_num
    · rw [q0, q1]; norm_num
  obtain ⟨k, g, h1, h2, h3⟩ := e2.faces 0 1 mid hin (by rw [hlen]; norm_num) (by norm_num) hface
  obtain ⟨g', h4, h5⟩ := e2.face k h1
  rw [h2] at h4
  obtain rfl := Option.some.inj h4
  rcases h3 with ⟨h6, h7⟩ | ⟨h6, h7⟩
  · exact ⟨k, g, h1, h2, h6, h7, h5⟩
  · exfalso
    obtain ⟨s, hs, hr⟩ := h5.seed
    rw [h6] at hs
    have := (hreg 1 s hs hr).1
    omega

end VoroCrust.CellRun
