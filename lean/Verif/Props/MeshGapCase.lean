import Verif.Props.MeshGap

/-!
# C105 for a cubic lattice
-/

namespace VoroCrust

open Classical

/-- The 64 lattice points with coordinates from -1 to 2. -/
def latticePoints : List (ℤ × ℤ × ℤ) := [-1, 0, 1, 2].product ([-1, 0, 1, 2].product [-1, 0, 1, 2])

/-- Is it one of the eight inner ones? -/
def latticeInner (p : ℤ × ℤ × ℤ) : Bool := (p.1 == 0 || p.1 == 1) && (p.2.1 == 0 || p.2.1 == 1) && (p.2.2 == 0 || p.2.2 == 1)

/-- A seed at a lattice point, of region 1 if it is an inner one. -/
noncomputable def latticeSeed (p : ℤ × ℤ × ℤ) : SeedRec := ⟨mkSphere p.1 p.2.1 p.2.2 0, 1 / 2, if latticeInner p then 1 else 0⟩

noncomputable def latticeSeeds : List SeedRec := latticePoints.map latticeSeed

theorem mem_lattice {a b c : ℤ} : (a, b, c) ∈ latticePoints ↔ (-1 ≤ a ∧ a ≤ 2) ∧ (-1 ≤ b ∧ b ≤ 2) ∧ -1 ≤ c ∧ c ≤ 2 := by
  have key : ∀ x : ℤ, x ∈ ([-1, 0, 1, 2] : List ℤ) ↔ -1 ≤ x ∧ x ≤ 2 := fun x => by
    simp only [List.mem_cons, List.not_mem_nil, or_false]
    omega
  unfold latticePoints
  rw [List.product, List.mem_flatMap]
  constructor
  · rintro ⟨x, hx, h⟩
    simp only [List.product, List.mem_map, List.mem_flatMap, Prod.mk.injEq] at h
    obtain ⟨q, ⟨y, hy, z, hz, rfl⟩, rfl, e⟩ := h
    simp only [Prod.mk.injEq] at e
    obtain ⟨rfl, rfl⟩ := e
    exact ⟨(key _).1 hx, (key _).1 hy, (key _).1 hz⟩
  · rintro ⟨h1, h2, h3⟩
    refine ⟨a, (key a).2 h1, List.mem_map.2 ⟨(b, c), ?_, rfl⟩⟩
    rw [List.product, List.mem_flatMap]
    exact ⟨b, (key b).2 h2, List.mem_map.2 ⟨c, (key c).2 h3, rfl⟩⟩

theorem lattice_nodup : latticePoints.Nodup := by decide +kernel

theorem lattice_get {i : Nat} (hi : i < latticeSeeds.length) : ∃ a b c : ℤ, (a, b, c) ∈ latticePoints ∧ latticePoints[i]? = some (a, b, c) ∧ latticeSeeds[i]? = some (latticeSeed (a, b, c)) ∧ seedPos latticeSeeds i = mkSphere a b c 0 := by
  unfold latticeSeeds at hi ⊢
  rw [List.length_map] at hi
  obtain ⟨⟨a, b, c⟩, hp⟩ : ∃ p, latticePoints[i]? = some p := ⟨_, List.getElem?_eq_getElem hi⟩
  have h1 : (latticePoints.map latticeSeed)[i]? = some (latticeSeed (a, b, c)) := by rw [List.getElem?_map, hp]; rfl
  refine ⟨a, b, c, List.mem_of_getElem? hp, hp, h1, ?_⟩
  unfold seedPos
  rw [h1]
  rfl

theorem lattice_at {a b c : ℤ} (h : (a, b, c) ∈ latticePoints) : ∃ i, i < latticeSeeds.length ∧ seedPos latticeSeeds i = mkSphere a b c 0 := by
  obtain ⟨i, hi, e⟩ := List.mem_iff_getElem.1 h
  have hi' : i < latticeSeeds.length := by unfold latticeSeeds; rwa [List.length_map]
  obtain ⟨a', b', c', -, e1, -, e2⟩ := lattice_get hi'
  rw [List.getElem?_eq_getElem hi, e, Option.some.injEq, Prod.mk.injEq, Prod.mk.injEq] at e1
  obtain ⟨rfl, rfl, rfl⟩ := e1
  exact ⟨i, hi', e2⟩

theorem lattice_grid : ∀ i, i < latticeSeeds.length → OnGrid (seedPos latticeSeeds) latticeSeeds.length (seedPos latticeSeeds i) := by
  intro i hi z hz
  obtain ⟨a, b, c, h1, -, -, h2⟩ := lattice_get hi
  obtain ⟨a', b', c', h3, -, -, h4⟩ := lattice_get hz
  rw [mem_lattice] at h1 h3
  refine ⟨fun k => if k = 0 then a' - a else if k = 1 then b' - b else c' - c, fun k hk => ?_⟩
  rw [h2, h4]
  interval_cases k
  · exact ⟨by simp [mkSphere], by simp only [if_true]; rw [abs_le]; omega⟩
  · exact ⟨by simp [mkSphere], by norm_num; rw [abs_le]; omega⟩
  · exact ⟨by simp [mkSphere], by norm_num; rw [abs_le]; omega⟩

theorem lattice_apart : SeedsApart (seedPos latticeSeeds) latticeSeeds.length := by
  intro i j hi hj h
  obtain ⟨a, b, c, -, h1, -, h2⟩ := lattice_get hi
  obtain ⟨a', b', c', -, h3, -, h4⟩ := lattice_get hj
  rw [h2, h4] at h
  have e0 := h 0 (by omega)
  have e1 := h 1 (by omega)
  have e2 := h 2 (by omega)
  simp only [mkSphere] at e0 e1 e2
  norm_num at e0 e1 e2
  obtain ⟨l1, l2⟩ := List.getElem?_eq_some_iff.1 h1
  obtain ⟨l3, l4⟩ := List.getElem?_eq_some_iff.1 h3
  exact (List.Nodup.getElem_inj_iff lattice_nodup).1 (by rw [l2, l4, e0, e1, e2])

/-- The cell of an inner seed is in a cube. -/
theorem lattice_cell {i : Nat} {a b c : ℤ} (hp : seedPos latticeSeeds i = mkSphere a b c 0) (hin : latticeInner (a, b, c) = true) {z : Nat → ℝ} (hz : InVoronoi latticeSeeds i z) : |z 0 - a| ≤ 1 / 2 ∧ |z 1 - b| ≤ 1 / 2 ∧ |z 2 - c| ≤ 1 / 2 := by
  have hr : (a = 0 ∨ a = 1) ∧ (b = 0 ∨ b = 1) ∧ (c = 0 ∨ c = 1) := by
    simp only [latticeInner, Bool.and_eq_true, Bool.or_eq_true, beq_iff_eq] at hin
    exact ⟨hin.1.1, hin.1.2, hin.2⟩
  have key : ∀ a' b' c' : ℤ, (a', b', c') ∈ latticePoints → (z 0 - a) ^ 2 + (z 1 - b) ^ 2 + (z 2 - c) ^ 2 ≤ (z 0 - a') ^ 2 + (z 1 - b') ^ 2 + (z 2 - c') ^ 2 := fun a' b' c' h => by
    obtain ⟨j, hj, e⟩ := lattice_at h
    have := hz j hj
    rw [hp, e, dist_mono] at this
    simp only [distSq3, mkSphere] at this
    norm_num at this
    linarith
  have k1 := key (a + 1) b c (mem_lattice.2 (by omega))
  have k2 := key (a - 1) b c (mem_lattice.2 (by omega))
  have k3 := key a (b + 1) c (mem_lattice.2 (by omega))
  have k4 := key a (b - 1) c (mem_lattice.2 (by omega))
  have k5 := key a b (c + 1) (mem_lattice.2 (by omega))
  have k6 := key a b (c - 1) (mem_lattice.2 (by omega))
  push_cast at k1 k2 k3 k4 k5 k6
  refine ⟨abs_le.2 ⟨?_, ?_⟩, abs_le.2 ⟨?_, ?_⟩, abs_le.2 ⟨?_, ?_⟩⟩ <;> nlinarith

theorem lattice_inner {i : Nat} {s : SeedRec} (hi : latticeSeeds[i]? = some s) (hr : s.region ≠ 0) : ∃ a b c : ℤ, seedPos latticeSeeds i = mkSphere a b c 0 ∧ latticeInner (a, b, c) = true ∧ s = latticeSeed (a, b, c) := by
  obtain ⟨a, b, c, -, -, h1, h2⟩ := lattice_get (List.getElem?_eq_some_iff.1 hi).1
  rw [hi] at h1
  obtain rfl := Option.some.inj h1
  refine ⟨a, b, c, h2, ?_, rfl⟩
  by_contra hno
  exact hr (by simp [latticeSeed, hno])

theorem lattice_bound (i : Nat) (s : SeedRec) (hi : latticeSeeds[i]? = some s) (hr : s.region ≠ 0) : (∃ r : Nat, 2 * s.size = (r : ℝ)) ∧ s.size ≤ 250 ∧ ∀ z, InVoronoi latticeSeeds i z → euclid 3 z (seedPos latticeSeeds i) < 2 * s.size := by
  obtain ⟨a, b, c, h1, h2, rfl⟩ := lattice_inner hi hr
  refine ⟨⟨1, by simp [latticeSeed]⟩, by simp only [latticeSeed]; norm_num, fun z hz => ?_⟩
  obtain ⟨x0, x1, x2⟩ := lattice_cell h1 h2 hz
  have : euclid 3 z (seedPos latticeSeeds i) ≤ 9 / 10 := by
    rw [← sqrt_distSq3]
    refine Real.sqrt_le_iff.2 ⟨by norm_num, ?_⟩
    rw [h1]
    simp only [distSq3, mkSphere]
    norm_num
    obtain ⟨a1, a2⟩ := abs_le.1 x0
    obtain ⟨b1, b2⟩ := abs_le.1 x1
    obtain ⟨c1, c2⟩ := abs_le.1 x2
    nlinarith
  simp only [latticeSeed]
  norm_num
  linarith

/-- Not vacuous: for 64 points of a cubic lattice, of which the eight in the middle are inner, a mesh is built and it is the Voronoi diagram.  One vertex, and only one, is in the middle, where eight cells meet. -/
theorem lattice_mesh : ∃ F, ∀ fuel' fuel, F ≤ fuel' → F ≤ fuel → ∃ mesh, voroMesh latticeSeeds fuel' fuel = some (some mesh) ∧ IsDiagramMesh latticeSeeds mesh ∧
    ∃! v, v < mesh.nv ∧ ∃ u, mesh.vertices v = some u ∧ ∀ d, d < 3 → u d = 1 / 2 := by
  have hlen : latticeSeeds.length = 64 := by unfold latticeSeeds; rw [List.length_map]; decide +kernel
  obtain ⟨F, hF⟩ := C105_grid latticeSeeds (fun h => by rw [h] at hlen; simp at hlen) (fun s hs => by
    unfold latticeSeeds at hs
    obtain ⟨p, -, rfl⟩ := List.mem_map.1 hs
    simp [latticeSeed]) lattice_grid lattice_apart (few_nearest (by omega)) lattice_bound
  refine ⟨F, fun fuel' fuel h1 h2 => ?_⟩
  obtain ⟨mesh, e1, e2⟩ := hF fuel' fuel h1 h2
  refine ⟨mesh, e1, e2, ?_⟩
  -- the middle is a vertex of the diagram
  have hmid : IsDiagramVertex latticeSeeds fun _ => 1 / 2 := by
    obtain ⟨i, hi, hp⟩ := lattice_at (mem_lattice.2 (by omega) : ((0 : ℤ), (0 : ℤ), (0 : ℤ)) ∈ latticePoints)
    have hd : ∀ (u : Nat → ℝ) (a b c : ℤ), distSq3 u (mkSphere a b c 0) = (u 0 - a) ^ 2 + (u 1 - b) ^ 2 + (u 2 - c) ^ 2 := fun u a b c => by
      simp only [distSq3, mkSphere]
      norm_num
      ring
    have hin : InVoronoi latticeSeeds i fun _ => 1 / 2 := fun y hy => by
      obtain ⟨a, b, c, h1, -, -, h2⟩ := lattice_get hy
      rw [hp, h2, dist_mono, hd, hd]
      have sq : ∀ x : ℤ, (1 / 4 : ℝ) ≤ (1 / 2 - x) ^ 2 := fun x => by
        rcases le_or_gt x 0 with g | g
        · have : (x : ℝ) ≤ 0 := by exact_mod_cast g
          nlinarith
        · have : (1 : ℝ) ≤ x := by exact_mod_cast g
          nlinarith
      have := sq a
      have := sq b
      have := sq c
      norm_num
      norm_num at *
      linarith
    refine ⟨i, ?_, hin, fun u hu => ?_⟩
    · obtain ⟨a, b, c, -, -, h1, h2⟩ := lattice_get hi
      rw [hp] at h2
      have e0 := congrFun h2 0
      have e1 := congrFun h2 1
      have e2 := congrFun h2 2
      simp only [mkSphere] at e0 e1 e2
      norm_num at e0 e1 e2
      have f0 : a = 0 := by exact_mod_cast e0.symm
      have f1 : b = 0 := by exact_mod_cast e1.symm
      have f2 : c = 0 := by exact_mod_cast e2.symm
      refine ⟨_, h1, ?_⟩
      rw [f0, f1, f2]
      simp [latticeSeed, latticeInner]
    · have key : ∀ a b c : ℤ, (a, b, c) ∈ latticePoints → (1 / 2 - (a : ℝ)) ^ 2 + (1 / 2 - (b : ℝ)) ^ 2 + (1 / 2 - (c : ℝ)) ^ 2 = 3 / 4 → u 0 ^ 2 + u 1 ^ 2 + u 2 ^ 2 = (u 0 - a) ^ 2 + (u 1 - b) ^ 2 + (u 2 - c) ^ 2 := fun a b c h he => by
        obtain ⟨j, hj, ej⟩ := lattice_at h
        have h3 := hu j hj ⟨hin, by
          rw [hp, ej, ← sqrt_distSq3, ← sqrt_distSq3, hd, hd, he]
          norm_num⟩
        rw [hp, ej] at h3
        have h4 : distSq3 u (mkSphere 0 0 0 0) = distSq3 u (mkSphere a b c 0) := by
          have h5 : euclid 3 u (mkSphere 0 0 0 0) = euclid 3 u (mkSphere a b c 0) := by simpa using h3
          rw [distSq3_sq, distSq3_sq, h5]
        have h6 := hd u 0 0 0
        simp only [Int.cast_zero, sub_zero] at h6
        rw [h6, hd] at h4
        exact h4
      have k0 := key 1 0 0 (mem_lattice.2 (by omega)) (by norm_num)
      have k1 := key 0 1 0 (mem_lattice.2 (by omega)) (by norm_num)
      have k2 := key 0 0 1 (mem_lattice.2 (by omega)) (by norm_num)
      norm_num at k0 k1 k2
      intro d hd3
      interval_cases d
      · show u 0 = 1 / 2; linarith
      · show u 1 = 1 / 2; linarith
      · show u 2 = 1 / 2; linarith
  obtain ⟨v, u, hv, hvu, hx⟩ := e2.vertices _ hmid
  refine ⟨v, ⟨hv, u, hvu, hx⟩, ?_⟩
  rintro v' ⟨hv', u', hvu', hx'⟩
  exact e2.distinct v' v u' u hv' hv hvu' hvu fun d hd => by rw [hx' d hd, hx d hd]

end VoroCrust
