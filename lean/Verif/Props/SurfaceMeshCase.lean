import Verif.Props.SurfaceMesh
import Verif.Props.ConformCase

/-! The tetrahedron of C104 for C106. -/

namespace VoroCrust

open Classical

/-- The eight seeds of the tetrahedron, of which the inner four have a region, and one in the middle. -/
noncomputable def tetMeshSeeds : List SeedRec :=
  (List.range 8).map (fun q => ⟨mergedSeed (tetSide 23) (tetSide 3) q, 34, if q < 4 then 0 else 1⟩) ++ [⟨fun _ => 0, 34, 1⟩]

/-- The corners as integers. -/
def tetVi : Nat → Nat → ℤ
  | 0, _ => 1
  | 1, 0 => 1
  | 1, _ => -1
  | 2, 1 => 1
  | 2, _ => -1
  | _, 2 => 1
  | _, _ => -1

/-- The seeds as integers. -/
def tetPosi (q d : Nat) : ℤ := if q < 4 then -23 * tetVi (3 - q) d else if q < 8 then -3 * tetVi (7 - q) d else 0

theorem tetMesh_len : tetMeshSeeds.length = 9 := by simp [tetMeshSeeds]

theorem tetMesh_first {q : Nat} (hq : q < 8) : tetMeshSeeds[q]? = some ⟨mergedSeed (tetSide 23) (tetSide 3) q, 34, if q < 4 then 0 else 1⟩ := by
  unfold tetMeshSeeds
  rw [List.getElem?_append_left (by simpa using hq)]
  simp [hq]

theorem tetMesh_last : tetMeshSeeds[8]? = some ⟨fun _ => 0, 34, 1⟩ := by
  unfold tetMeshSeeds
  rw [List.getElem?_append_right (by simp)]
  simp

theorem tetMesh_pos {q d : Nat} (hq : q < 9) (hd : d < 3) : seedPos tetMeshSeeds q d = tetPosi q d := by
  unfold seedPos
  by_cases h8 : q < 8
  · rw [tetMesh_first h8]
    show mergedSeed (tetSide 23) (tetSide 3) q d = _
    unfold mergedSeed
    by_cases h4 : q < 4
    · rw [if_pos (by exact h4)]
      show tetSeed 23 (3 - q) d = _
      unfold tetSeed tetPosi
      rw [if_pos hd, if_pos h4]
      interval_cases q <;> interval_cases d <;> norm_num [tetV, tetVi]
    · rw [if_neg (by exact h4)]
      show tetSeed 3 (3 - (q - 4)) d = _
      unfold tetSeed tetPosi
      rw [if_pos hd, if_neg h4, if_pos h8]
      interval_cases q <;> interval_cases d <;> first | omega | norm_num [tetV, tetVi]
  · obtain rfl : q = 8 := by omega
    rw [tetMesh_last]
    simp [tetPosi]

theorem tetMesh_grid : ∀ i, i < tetMeshSeeds.length → OnGrid (seedPos tetMeshSeeds) tetMeshSeeds.length (seedPos tetMeshSeeds i) := by
  rw [tetMesh_len]
  intro i hi z hz
  refine ⟨fun k => tetPosi z k - tetPosi i k, fun k hk => ⟨by rw [tetMesh_pos hz hk, tetMesh_pos hi hk]; push_cast; ring, ?_⟩⟩
  have h : ∀ i z : Fin 9, ∀ k : Fin 3, |tetPosi z k - tetPosi i k| ≤ 100 := by decide +kernel
  exact h ⟨i, hi⟩ ⟨z, hz⟩ ⟨k, hk⟩

theorem tetMesh_apart : SeedsApart (seedPos tetMeshSeeds) tetMeshSeeds.length := by
  rw [tetMesh_len]
  intro i j hi hj h
  have key : ∀ i j : Fin 9, (∀ d : Fin 3, tetPosi i d = tetPosi j d) → i = j := by decide +kernel
  have := key ⟨i, hi⟩ ⟨j, hj⟩ fun d => by
    have := h d d.2
    rw [tetMesh_pos hi d.2, tetMesh_pos hj d.2] at this
    exact_mod_cast this
  exact congrArg Fin.val this

theorem tet_far {a b c s : ℝ} (h : a ^ 2 + b ^ 2 + c ^ 2 ≤ 3 * s ^ 2) (g : -39 ≤ s) (g' : s ≤ 0) : a ^ 2 + b ^ 2 + c ^ 2 + 6 * s + 27 ≤ 4500 := by
  nlinarith [mul_nonneg (sub_nonneg.2 g) (sub_nonneg.2 g')]

theorem tet_heights {s0 s1 s2 s3 : ℝ} (h : s0 + s1 + s2 + s3 = 0) (h1 : s0 ≤ s1) (h2 : s0 ≤ s2) (h3 : s0 ≤ s3) : s0 ^ 2 + s1 ^ 2 + s2 ^ 2 + s3 ^ 2 ≤ 12 * s0 ^ 2 := by
  nlinarith [mul_nonneg (sub_nonneg.2 h1) (sub_nonneg.2 h2), mul_nonneg (sub_nonneg.2 h1) (sub_nonneg.2 h3), mul_nonneg (sub_nonneg.2 h2) (sub_nonneg.2 h3)]

theorem tet_corner {a b c s0 s1 s2 s3 : ℝ} (hq : a ^ 2 + b ^ 2 + c ^ 2 = (s0 ^ 2 + s1 ^ 2 + s2 ^ 2 + s3 ^ 2) / 4) (h : s0 + s1 + s2 + s3 = 0) (h1 : s0 ≤ s1) (h2 : s0 ≤ s2) (h3 : s0 ≤ s3) (g : -39 ≤ s0) : a ^ 2 + b ^ 2 + c ^ 2 + 6 * s0 + 27 ≤ 4500 :=
  tet_far (by have := tet_heights h h1 h2 h3; linarith) g (by linarith)

theorem sq_small {a : ℝ} (h1 : -9 / 2 ≤ a) (h2 : a ≤ 9 / 2) : a ^ 2 ≤ 81 / 4 := by nlinarith

/-- The cells of the inner seeds are not farther than 68. -/
theorem tetMesh_bound {i : Nat} (h4 : 4 ≤ i) (hi : i < 9) {z : Nat → ℝ} (hz : InVoronoi tetMeshSeeds i z) : euclid 3 z (seedPos tetMeshSeeds i) < 68 := by
  have hd : ∀ q, q < 9 → distSq3 z (seedPos tetMeshSeeds q) = (z 0 - tetPosi q 0) ^ 2 + (z 1 - tetPosi q 1) ^ 2 + (z 2 - tetPosi q 2) ^ 2 := fun q hq => by
    unfold distSq3
    rw [tetMesh_pos hq (by norm_num), tetMesh_pos hq (by norm_num), tetMesh_pos hq (by norm_num)]
    ring
  have near : ∀ q, q < 9 → (z 0 - tetPosi i 0) ^ 2 + (z 1 - tetPosi i 1) ^ 2 + (z 2 - tetPosi i 2) ^ 2 ≤ (z 0 - tetPosi q 0) ^ 2 + (z 1 - tetPosi q 1) ^ 2 + (z 2 - tetPosi q 2) ^ 2 := fun q hq => by
    have := hz q (by rw [tetMesh_len]; exact hq)
    rw [dist_mono, hd i hi, hd q hq] at this
    exact this
  have far : distSq3 z (seedPos tetMeshSeeds i) ≤ 4500 := by
    rw [hd i hi]
    obtain ⟨s0, e0⟩ : ∃ s, s = z 0 + z 1 + z 2 := ⟨_, rfl⟩
    obtain ⟨s1, e1⟩ : ∃ s, s = z 0 - z 1 - z 2 := ⟨_, rfl⟩
    obtain ⟨s2, e2⟩ : ∃ s, s = -z 0 + z 1 - z 2 := ⟨_, rfl⟩
    obtain ⟨s3, e3⟩ : ∃ s, s = -z 0 - z 1 + z 2 := ⟨_, rfl⟩
    have hsum : s0 + s1 + s2 + s3 = 0 := by linarith
    have hsq : z 0 ^ 2 + z 1 ^ 2 + z 2 ^ 2 = (s0 ^ 2 + s1 ^ 2 + s2 ^ 2 + s3 ^ 2) / 4 := by rw [e0, e1, e2, e3]; ring
    have n4 := near 4 (by norm_num)
    have n5 := near 5 (by norm_num)
    have n6 := near 6 (by norm_num)
    have n7 := near 7 (by norm_num)
    have m := near (i - 4) (by omega)
    clear near hd hz
    interval_cases i
    · norm_num [tetPosi, tetVi] at n5 n6 n7 m ⊢
      have := tet_corner (s0 := s3) (s1 := s0) (s2 := s1) (s3 := s2) (hsq.trans (by ring)) (by linarith) (by linarith) (by linarith) (by linarith) (by linarith)
      linarith
    · norm_num [tetPosi, tetVi] at n4 n6 n7 m ⊢
      have := tet_corner (s0 := s2) (s1 := s0) (s2 := s1) (s3 := s3) (hsq.trans (by ring)) (by linarith) (by linarith) (by linarith) (by linarith) (by linarith)
      linarith
    · norm_num [tetPosi, tetVi] at n4 n5 n7 m ⊢
      have := tet_corner (s0 := s1) (s1 := s0) (s2 := s2) (s3 := s3) (hsq.trans (by ring)) (by linarith) (by linarith) (by linarith) (by linarith) (by linarith)
      linarith
    · norm_num [tetPosi, tetVi] at n4 n5 n6 m ⊢
      have := tet_corner (s0 := s0) (s1 := s1) (s2 := s2) (s3 := s3) (hsq.trans (by ring)) (by linarith) (by linarith) (by linarith) (by linarith) (by linarith)
      linarith
    · norm_num [tetPosi, tetVi] at n4 n5 n6 n7 ⊢
      have := sq_small (a := z 0) (by linarith) (by linarith)
      have := sq_small (a := z 1) (by linarith) (by linarith)
      have := sq_small (a := z 2) (by linarith) (by linarith)
      linarith
  rw [← sqrt_distSq3]
  refine lt_of_le_of_lt (Real.sqrt_le_sqrt far) ?_
  rw [Real.sqrt_lt' (by norm_num)]
  norm_num

theorem tetMesh_around (q : Nat) (a : SeedAttr) (ha : (mergeSeedAttrs (tetSide 23) (tetSide 3))[q]? = some a) : SeedsAround tetZ (tetSide 23) (tetSide 3) tetMeshSeeds 0 a := by
  refine ⟨by rw [tetMesh_len]; show 4 + 4 ≤ 9; norm_num, fun q hq d _ => ?_, fun q hq hql s hs => ?_⟩
  · unfold seedPos
    rw [tetMesh_first hq]
  · have hq : 8 ≤ q := hq
    rw [tetMesh_len] at hql
    obtain rfl : q = 8 := by omega
    have hs' : s < 4 := (tet_stored.exact tet_noGrazing ha).seed.valid s hs
    have e : seedPos tetMeshSeeds 8 = fun _ => 0 := by
      unfold seedPos
      rw [tetMesh_last]
    rw [e, tetZ_at hs']
    have e3 : tetSphere s 3 = 66 := rfl
    rw [e3, sub_zero]
    refine le_dist (by norm_num) ?_
    interval_cases s <;> norm_num [tetSphere, tetV]

/-- Not vacuous: the mesh of the tetrahedron has each of its four sides as a face, once. -/
theorem tet_mesh : ∃ F, ∀ fuel' fuel, F ≤ fuel' → F ≤ fuel → ∃ mesh, voroMesh tetMeshSeeds fuel' fuel = some (some mesh) ∧ IsDiagramMesh tetMeshSeeds mesh ∧
    ∀ (q : Nat) (a : SeedAttr), q < 4 → tetAttrs[q]? = some a → ∃! k, k < mesh.nf ∧ IsTriangleFace mesh k q (q + 4) (tetSphere a.s1) (tetSphere a.s2) (tetSphere a.s3) := by
  have hwt : Watertight 4 ((tetSide 3).attr.map fun a => [a.s1, a.s2, a.s3]) := by
    show Watertight 4 [[0, 1, 2], [0, 3, 1], [0, 2, 3], [1, 3, 2]]
    unfold Watertight
    decide
  obtain ⟨F, hF⟩ := C105_grid tetMeshSeeds (fun h => by have := tetMesh_len; rw [h] at this; simp at this) (fun s hs => by
    unfold tetMeshSeeds at hs
    simp only [List.mem_append, List.mem_map, List.mem_singleton] at hs
    rcases hs with ⟨q, -, rfl⟩ | rfl <;> norm_num) tetMesh_grid tetMesh_apart (few_nearest (by rw [tetMesh_len]; norm_num)) fun i s hi hr => by
      have hlt : i < 9 := by rw [← tetMesh_len]; exact (List.getElem?_eq_some_iff.1 hi).1
      have h34 : s.size = 34 ∧ 4 ≤ i := by
        by_cases h8 : i < 8
        · rw [tetMesh_first h8] at hi
          obtain rfl := Option.some.inj hi
          refine ⟨rfl, ?_⟩
          by_contra hno
          exact hr (if_pos (not_le.1 hno))
        · obtain rfl : i = 8 := by omega
          rw [tetMesh_last] at hi
          obtain rfl := Option.some.inj hi
          exact ⟨rfl, by norm_num⟩
      rw [h34.1]
      refine ⟨⟨68, by norm_num⟩, by norm_num, fun z hz => ?_⟩
      have := tetMesh_bound h34.2 hlt hz
      linarith
  refine ⟨F, fun fuel' fuel h1 h2 => ?_⟩
  obtain ⟨mesh, e1, e2⟩ := hF fuel' fuel h1 h2
  refine ⟨mesh, e1, e2, fun q a hq ha => ?_⟩
  have hsurf := surface_in_mesh tet_stored tet_noGrazing hwt tetMesh_around e2
  obtain ⟨h3, -, -⟩ := tet_ok ha
  have hm : (mergeSeedAttrs (tetSide 23) (tetSide 3))[q]? = some { a with pair := a.pair + 4 } := by
    unfold mergeSeedAttrs
    rw [List.getElem?_append_left (by exact hq), List.getElem?_map]
    show Option.map _ (tetAttrs[q]?) = _
    rw [ha]
    rfl
  have hv := (tet_stored.exact tet_noGrazing hm).seed.valid
  have key := hsurf q _ hm (Or.inr ⟨_, tetMesh_first (q := a.pair + 4) (by omega), by simp⟩) (Or.inl (hv _ (.inr (.inl rfl))))
  simp only at key
  rw [h3, tetZ_at (hv _ (.inl rfl)), tetZ_at (hv _ (.inr (.inl rfl))), tetZ_at (hv _ (.inr (.inr rfl)))] at key
  exact key

end VoroCrust
