import Verif.Props.SurfaceMeshCase

/-!
# C108: no cell of the diagram crosses the sampled surface
-/

namespace VoroCrust

variable {Z : SphereSet} {face : Nat → Fin 3 → V3} {up lo : SeedTree}

/-- The point is nearer to seed `i` than to every other seed, by more than `δ` in the squares of the distances: the inside of the cell, without a layer at its faces. -/
def DeepInside (xs : List SeedRec) (δ : ℝ) (i : Nat) (z : Nat → ℝ) : Prop := ∀ y, y < xs.length → y ≠ i → euclid 3 z (seedPos xs i) ^ 2 + δ < euclid 3 z (seedPos xs y) ^ 2

/-- A point of the segment between two points. -/
def BetweenPoints (u w z : Nat → ℝ) : Prop := ∃ t : ℝ, 0 ≤ t ∧ t ≤ 1 ∧ ∀ d, d < 3 → z d = (1 - t) * u d + t * w d

/-- The inside of a cell is convex. -/
theorem DeepInside.segment {xs : List SeedRec} {δ : ℝ} {i : Nat} {u w z : Nat → ℝ} (hu : DeepInside xs δ i u) (hw : DeepInside xs δ i w) (hz : BetweenPoints u w z) : DeepInside xs δ i z := by
  obtain ⟨t, t0, t1, hz⟩ := hz
  intro y hy hyi
  have e := affine_gap (a := u) (b := w) (c := u) (z := z) (u := 1 - t) (v := t) (w := 0) (by ring) (fun d hd => by rw [hz d hd]; ring) (seedPos xs i) (seedPos xs y)
  have h1 := hu y hy hyi
  have h2 := hw y hy hyi
  rcases eq_or_lt_of_le t0 with h0 | h0
  · rw [← h0] at e
    linarith
  · have k1 := mul_le_mul_of_nonneg_left h1.le (sub_nonneg.2 t1)
    have k2 := mul_lt_mul_of_pos_left h2 h0
    linarith

/-- No point of a triangle of the surface is inside a cell. -/
theorem triangle_not_inside {xs : List SeedRec} {q p : Nat} {δ : ℝ} {z : Nat → ℝ} (hδ : 0 ≤ δ) (hq : q < xs.length) (hp : p < xs.length) (hqp : p ≠ q)
    (heq : euclid 3 z (seedPos xs q) = euclid 3 z (seedPos xs p)) (hn : ∀ y, y < xs.length → euclid 3 z (seedPos xs q) ^ 2 ≤ euclid 3 z (seedPos xs y) ^ 2 + δ) {i : Nat} (hi : i < xs.length) : ¬ DeepInside xs δ i z := by
  intro hd
  by_cases h : i = q
  · subst h
    have := hd p hp hqp
    rw [heq] at this
    linarith
  · have h1 := hd q hq (Ne.symm h)
    have h3 := hn i hi
    linarith

/-- **C108**: let the stored seeds be pairs as C39 describes them, no sphere graze a common point of three others, and the further seeds be outside the spheres, up to `ε`.  Then no cell of the diagram crosses the
surface: a segment between two points inside the same cell (`2 ε R` away from its faces, in squared distances) meets no triangle of the surface, whatever cell, segment and triangle.  For `ε = 0` this is the whole inside. -/
theorem C108_no_crossing (h : StoredSeeds Z face up lo) (hg : NoGrazing Z) (xs : List SeedRec) {ε R : ℝ} (hε : 0 ≤ ε) (hR : ∀ s, s < Z.total → Z.at s 3 ≤ R) {q : Nat} {a : SeedAttr}
    (ha : (mergeSeedAttrs up lo)[q]? = some a) (hx : SeedsAround Z up lo xs ε a) {i : Nat} (hi : i < xs.length) {u w : Nat → ℝ} (hu : DeepInside xs (2 * ε * R) i u) (hw : DeepInside xs (2 * ε * R) i w)
    {z : Nat → ℝ} (hz : BetweenPoints u w z) : ¬ InTri3 (Z.at a.s1) (Z.at a.s2) (Z.at a.s3) z := by
  intro ht
  have he := h.exact hg ha
  have hq : q < xs.length := by
    have h1 := (List.getElem?_eq_some_iff.1 ha).1
    rw [h.len] at h1
    exact lt_of_lt_of_le h1 hx.le
  have hR' : ∀ s, a.Has s → Z.at s 3 ≤ R := fun s hs => hR s (he.seed.valid s hs)
  obtain ⟨k1, k2⟩ := triangle_nearest h hg ha hε hx hR' ht
  have r0 : 0 ≤ R := by
    have := he.seed.on a.s1 (.inl rfl)
    exact le_trans (by rw [← this]; exact euclid_nonneg _ _ _) (hR' a.s1 (.inl rfl))
  exact triangle_not_inside (by positivity) hq (lt_of_lt_of_le he.lt hx.le) (fun e => by have := he.side; rw [e] at this; omega) k1 k2 hi (hu.segment hw hz)

/-- **C108, the whole run**: as in `C104_run`, from `generate_surface_spheres` to the seeds the mesh is made of.  No cell of these seeds crosses a triangle of surface spheres (any triangle if there are no edge spheres),
but for a layer at its faces of `2e-10` times the largest radius, in squared distances (the mesher lets a seed be `1e-10` inside a sphere). -/
theorem C108_run {ρ : ℝ → ℝ} (hmono : Monotone ρ) (hρ : ∀ n : Nat, ρ (n : ℝ) = n) (E : SurfSetup) (hE : E.Ok) (mps fuel : Nat) (r : SurfRun) (up lo : SeedTree)
    (hrun : surfaceSpheres E mps fuel = some (some (r, up, lo))) {Z : SphereSet} (eZ : Z = E.spheres r.tree.spheres r.tree.links) (hZ : Z.OK E.L)
    (hW : ∀ k, (E.env Z { r with seedings := k }).Works Z) (hg : NoGrazing Z)
    {F : Features} {L rmax : ℝ} (hF : F.OK L) (hsz : SizingOK F) (hmax : 0 ≤ rmax)
    (hc : F.corners.length ≤ F.surface.length) (hz : F.sizing.length ≤ F.surface.length) (hEd : EdgesOK F) (hZF : SameSpheres Z F) (threads : Nat) (imposed : Option (List (Nat → ℝ))) (generate : Bool)
    (D : RunDraws) (hd : AllDrawsOK F D.vs D.ys) (hi : ∀ inp ∈ D.inputs, inp.OK) (hu : ∀ i, 0 ≤ D.us i ∧ D.us i ≤ 1) (seeds : List SeedRec) (h0 : ∀ a ∈ seeds, 0 ≤ a.size)
    (hin : ∃ a ∈ seeds, a.region ≠ 0) (hD : ImposeOK F L seeds imposed D) (hlen : seeds.length = up.tree.num + lo.tree.num)
    (hpos : ∀ (q : Nat) (s : SeedRec), seeds[q]? = some s → ∀ d, d < 3 → s.x d = mergedSeed up lo q d) :
    ∃ N, ∀ lf, N ≤ lf → ∀ out, interiorRun ρ F L rmax lf threads imposed generate D seeds = some (some out) →
      ∀ (q : Nat) (a : SeedAttr), (mergeSeedAttrs up lo)[q]? = some a → (∀ s, a.Has s → s < Z.S.num) ∨ F.edges = [] → ∀ R, (∀ s, s < Z.total → Z.at s 3 ≤ R) →
        ∀ i, i < out.seeds.length → ∀ u w, DeepInside out.seeds (2 * 1e-10 * R) i u → DeepInside out.seeds (2 * 1e-10 * R) i w → ∀ z, BetweenPoints u w z →
          ¬ InTri3 (Z.at a.s1) (Z.at a.s2) (Z.at a.s3) z := by
  have hS := C82_surface_spheres E hE mps fuel r up lo hrun
  obtain ⟨⟨m0, m0'⟩, m1, m2, -⟩ := hS.seeds Z eZ hZ hW
  have hst : StoredSeeds Z (recordedFace E r) up lo := ⟨m0, m0', m1, m2⟩
  obtain ⟨N, hN⟩ := run_seeds_around hmono hρ hst hg (rmax := rmax) hF hsz hmax hc hz hEd hZF threads imposed generate D hd hi hu seeds h0 hin hD hlen hpos
  exact ⟨N, fun lf hf out ho q a ha hcase R hR i hi' u w hu' hw' z hz' => C108_no_crossing hst hg out.seeds (by norm_num) hR ha (hN lf hf out ho q a ha hcase) hi' hu' hw' hz'⟩

/-- Not vacuous: the diagonal between `(-1, -1, -1)` and `(1, 1, 1)` is inside the cell of the seed in the middle of the tetrahedron, and meets none of its sides. -/
theorem tet_no_crossing : DeepInside tetMeshSeeds 0 8 (fun _ => -1) ∧ DeepInside tetMeshSeeds 0 8 (fun _ => 1) ∧
    ∀ (q : Nat) (a : SeedAttr), (mergeSeedAttrs (tetSide 23) (tetSide 3))[q]? = some a → ∀ z, BetweenPoints (fun _ => -1) (fun _ => 1) z → ¬ InTri3 (tetZ.at a.s1) (tetZ.at a.s2) (tetZ.at a.s3) z := by
  have key : ∀ c : ℝ, c = -1 ∨ c = 1 → DeepInside tetMeshSeeds 0 8 (fun _ => c) := by
    intro c hc y hy hne
    rw [tetMesh_len] at hy
    rw [euclid3_sq, euclid3_sq, tetMesh_pos (by norm_num) (by norm_num), tetMesh_pos (by norm_num) (by norm_num), tetMesh_pos (by norm_num) (by norm_num), tetMesh_pos hy (by norm_num), tetMesh_pos hy (by norm_num),
      tetMesh_pos hy (by norm_num)]
    rcases hc with rfl | rfl <;> interval_cases y <;> first | exact absurd rfl hne | norm_num [tetPosi, tetVi]
  refine ⟨key _ (.inl rfl), key _ (.inr rfl), fun q a ha z hz => ?_⟩
  refine C108_no_crossing tet_stored tet_noGrazing tetMeshSeeds (ε := 0) (R := 66) le_rfl (fun s hs => ?_) ha (tetMesh_around q a ha) (i := 8) (by rw [tetMesh_len]; norm_num) ?_ ?_ hz
  · rw [tetZ_at hs]
    exact le_rfl
  · rw [mul_zero, zero_mul]; exact key _ (.inl rfl)
  · rw [mul_zero, zero_mul]; exact key _ (.inr rfl)

end VoroCrust
