import Verif.Props.Conform
import Verif.Props.MeshGapVolume

/-!
# C106: the generated mesh contains the triangles of the surface
-/

namespace VoroCrust

open Classical

variable {xs : List SeedRec} {M : VMesh}

/-- A vertex of the mesh at a place. -/
def VMesh.AtPlace (M : VMesh) (v : Nat) (p : Nat → ℝ) : Prop := ∃ u, M.vertices v = some u ∧ ∀ k, k < 3 → u k = p k

/-- A vertex of the diagram on a face that is a triangle is one of the three corners. -/
theorem vertex_of_triangle {i y : Nat} {A B C u : Nat → ℝ} (hi : i < xs.length) (htri : ∀ z, InTri3 A B C z ↔ CommonFace xs i y z) (hu : IsDiagramVertex xs u) (hc : CommonFace xs i y u) :
    (∀ k, k < 3 → u k = A k) ∨ (∀ k, k < 3 → u k = B k) ∨ ∀ k, k < 3 → u k = C k := by
  obtain ⟨a, b, c, ha, hb, hcc, hsum, hz⟩ := (htri u).2 hc
  have hcor := diagram_corner hu hi hc.1
  -- a corner with a positive weight is the point
  have key : ∀ {P : Nat → ℝ} {m : Nat → ℝ} {t : ℝ}, InTri3 A B C P → InTri3 A B C m → 0 < t → t < 1 → (∀ k, k < 3 → u k = m k + t * (P k - m k)) → ∀ k, k < 3 → u k = P k := by
    intro P m t hP hm ht ht1 hl k hk
    by_cases e : coords m = coords P
    · have : m k = P k := congrFun e ⟨k, hk⟩
      rw [hl k hk, this]
      ring
    · exact (hcor.between (coords_cell ((htri m).1 hm).1) (coords_cell ((htri P).1 hP).1) e ht ht1 fun k => hl k k.2).elim
  have one : ∀ {x y' w : ℝ} {P Q R : Nat → ℝ}, 0 < x → 0 ≤ y' → 0 ≤ w → x + y' + w = 1 → (∀ k, k < 3 → u k = x * P k + y' * Q k + w * R k) → InTri3 A B C P → (∀ s t : ℝ, 0 ≤ s → 0 ≤ t → s + t = 1 → InTri3 A B C fun k => s * Q k + t * R k) →
      ∀ k, k < 3 → u k = P k := by
    intro x y' w P Q R hx hy hw hs hl hP hQR k hk
    by_cases h1 : x = 1
    · have y0 : y' = 0 := by linarith
      have w0 : w = 0 := by linarith
      rw [hl k hk, h1, y0, w0]
      ring
    · have hx1 : x < 1 := lt_of_le_of_ne (by linarith) h1
      have hne : 1 - x ≠ 0 := by linarith
      refine key hP (hQR (y' / (1 - x)) (w / (1 - x)) (div_nonneg hy (by linarith)) (div_nonneg hw (by linarith)) (by rw [← add_div, div_eq_one_iff_eq hne]; linarith)) hx hx1 (fun k hk => ?_) k hk
      rw [hl k hk]
      field_simp
      ring
  have tA : InTri3 A B C A := ⟨1, 0, 0, by norm_num, by norm_num, by norm_num, by norm_num, fun d _ => by ring⟩
  have tB : InTri3 A B C B := ⟨0, 1, 0, by norm_num, by norm_num, by norm_num, by norm_num, fun d _ => by ring⟩
  have tC : InTri3 A B C C := ⟨0, 0, 1, by norm_num, by norm_num, by norm_num, by norm_num, fun d _ => by ring⟩
  by_cases ha0 : 0 < a
  · exact Or.inl (one ha0 hb hcc hsum hz tA fun s t hs ht hst => ⟨0, s, t, le_refl _, hs, ht, by linarith, fun d _ => by ring⟩)
  by_cases hb0 : 0 < b
  · exact Or.inr (Or.inl (one (P := B) (Q := A) (R := C) hb0 ha hcc (by linarith) (fun k hk => by rw [hz k hk]; ring) tB fun s t hs ht hst => ⟨s, 0, t, hs, le_refl _, ht, by linarith, fun d _ => by ring⟩))
  · exact Or.inr (Or.inr (one (x := c) (P := C) (Q := A) (R := B) (by linarith) ha hb (by linarith) (fun k hk => by rw [hz k hk]; ring) tC fun s t hs ht hst => ⟨s, t, 0, hs, ht, le_refl _, by linarith, fun d _ => by ring⟩))

/-- A face that is a triangle has its three corners as vertices, and no others. -/
theorem face_of_triangle (hM : IsDiagramMesh xs M) {g : MeshFace} (hg : IsVoronoiFace xs M g) {A B C : Nat → ℝ} (htri : ∀ z, InTri3 A B C z ↔ CommonFace xs g.seed g.nbr z) :
    ∃ v1 v2 v3, g.verts.Perm [v1, v2, v3] ∧ M.AtPlace v1 A ∧ M.AtPlace v2 B ∧ M.AtPlace v3 C := by
  set T : Fin 3 → Nat → ℝ := ![A, B, C] with hT
  have hlab : ∀ v, ∃ l : Fin 3, v ∈ g.verts → M.AtPlace v (T l) := by
    intro v
    by_cases hv : v ∈ g.verts
    · obtain ⟨u, h1, h2⟩ := hM.vertex v (hg.verts v hv)
      have hc := (hg.hull u).1 ⟨u, subset_convexHull ℝ _ ⟨v, hv, h1⟩, fun _ _ => rfl⟩
      rcases vertex_of_triangle hg.seed.lt htri h2 hc with h | h | h
      · exact ⟨0, fun _ => ⟨u, h1, h⟩⟩
      · exact ⟨1, fun _ => ⟨u, h1, h⟩⟩
      · exact ⟨2, fun _ => ⟨u, h1, h⟩⟩
    · exact ⟨0, fun h => absurd h hv⟩
  choose lab hlab using hlab
  have hinj : ∀ v ∈ g.verts, ∀ v' ∈ g.verts, lab v = lab v' → v = v' := by
    intro v hv v' hv' e
    obtain ⟨u, h1, h2⟩ := hlab v hv
    obtain ⟨u', h1', h2'⟩ := hlab v' hv'
    exact hM.distinct v v' u u' (hg.verts v hv) (hg.verts v' hv') h1 h1' fun k hk => by rw [h2 k hk, h2' k hk, e]
  have hnd : (g.verts.map lab).Nodup := (List.nodup_map_iff_inj_on hg.nodup).2 hinj
  have hcard : (g.verts.map lab).toFinset.card = g.verts.length := by rw [List.toFinset_card_of_nodup hnd, List.length_map]
  have hle : (g.verts.map lab).toFinset.card ≤ 3 := by
    have := Finset.card_le_univ (g.verts.map lab).toFinset
    simpa using this
  have h3 := hg.three
  have huniv : (g.verts.map lab).toFinset = Finset.univ := Finset.eq_univ_of_card _ (by rw [Fintype.card_fin]; omega)
  have hall : ∀ l : Fin 3, ∃ v ∈ g.verts, lab v = l := by
    intro l
    have : l ∈ (g.verts.map lab).toFinset := by rw [huniv]; exact Finset.mem_univ l
    rw [List.mem_toFinset] at this
    obtain ⟨v, hv, e⟩ := List.mem_map.1 this
    exact ⟨v, hv, e⟩
  obtain ⟨v1, m1, e1⟩ := hall 0
  obtain ⟨v2, m2, e2⟩ := hall 1
  obtain ⟨v3, m3, e3⟩ := hall 2
  have n12 : v1 ≠ v2 := fun e => by rw [e, e2] at e1; exact absurd e1 (by decide)
  have n13 : v1 ≠ v3 := fun e => by rw [e, e3] at e1; exact absurd e1 (by decide)
  have n23 : v2 ≠ v3 := fun e => by rw [e, e3] at e2; exact absurd e2 (by decide)
  refine ⟨v1, v2, v3, ?_, ?_, ?_, ?_⟩
  · refine (List.Subperm.perm_of_length_le (List.subperm_of_subset (by simp [n12, n13, n23]) ?_) ?_).symm
    · intro v hv
      simp only [List.mem_cons, List.not_mem_nil, or_false] at hv
      rcases hv with rfl | rfl | rfl <;> assumption
    · simp
      omega
  · have := hlab v1 m1
    rw [e1] at this
    exact this
  · have := hlab v2 m2
    rw [e2] at this
    exact this
  · have := hlab v3 m3
    rw [e3] at this
    exact this

/-- The face between two seeds that is the triangle of three centres. -/
def IsTriangleFace (M : VMesh) (k q p : Nat) (A B C : Nat → ℝ) : Prop :=
  ∃ g, M.faces k = some g ∧ ((g.seed = q ∧ g.nbr = p) ∨ (g.seed = p ∧ g.nbr = q)) ∧ ∃ v1 v2 v3, g.verts.Perm [v1, v2, v3] ∧ M.AtPlace v1 A ∧ M.AtPlace v2 B ∧ M.AtPlace v3 C

/-- Every triangle of the surface is a face of the mesh. -/
def SurfaceInMesh (Z : SphereSet) (up lo : SeedTree) (xs : List SeedRec) (M : VMesh) : Prop :=
  ∀ (q : Nat) (a : SeedAttr), (mergeSeedAttrs up lo)[q]? = some a → InnerSeed xs q ∨ InnerSeed xs a.pair → (a.s2 < Z.S.num ∨ a.s3 < Z.S.num ∨ SharedEdge up lo a.s2 a.s3 a.s1) →
    ∃! k, k < M.nf ∧ IsTriangleFace M k q a.pair (Z.at a.s1) (Z.at a.s2) (Z.at a.s3)

theorem surface_in_mesh {Z : SphereSet} {face : Nat → Fin 3 → V3} {up lo : SeedTree} (h : StoredSeeds Z face up lo) (hg : NoGrazing Z) (hw : Watertight Z.S.num (lo.attr.map fun a => [a.s1, a.s2, a.s3]))
    (hx : ∀ (q : Nat) (a : SeedAttr), (mergeSeedAttrs up lo)[q]? = some a → SeedsAround Z up lo xs 0 a) (hM : IsDiagramMesh xs M) : SurfaceInMesh Z up lo xs M := by
  intro q a ha hin hedge
  have htri := C104_triangle_is_face h hg hw ha hedge (hx q a ha)
  have he := h.exact hg ha
  have hq : q < xs.length := by
    have h1 := (List.getElem?_eq_some_iff.1 ha).1
    rw [h.len] at h1
    exact lt_of_lt_of_le h1 (hx q a ha).le
  have hp : a.pair < xs.length := lt_of_lt_of_le he.lt (hx q a ha).le
  have hqp : a.pair ≠ q := fun e => by have := he.side; rw [e] at this; omega
  have hflat : FlatFace xs q a.pair := by
    refine ⟨Z.at a.s1, Z.at a.s2, Z.at a.s3, ?_, (htri _).1 ⟨1, 0, 0, by norm_num, by norm_num, by norm_num, by norm_num, fun d _ => by ring⟩, (htri _).1 ⟨0, 1, 0, by norm_num, by norm_num, by norm_num, by norm_num, fun d _ => by ring⟩,
      (htri _).1 ⟨0, 0, 1, by norm_num, by norm_num, by norm_num, by norm_num, fun d _ => by ring⟩⟩
    by_contra hno
    unfold NotLine at hno
    push Not at hno
    apply he.proper
    obtain ⟨e0, e1, e2⟩ := areaVec_at (Z.at a.s1) (Z.at a.s2) (Z.at a.s3)
    ext d
    fin_cases d
    · show areaVec _ 0 = 0
      rw [e0]; exact hno.2.1
    · show areaVec _ 1 = 0
      rw [e1]; exact hno.2.2
    · show areaVec _ 2 = 0
      rw [e2]; exact hno.1
  have hflat' : FlatFace xs a.pair q := by
    obtain ⟨x, y, z, h0, h1, h2, h3⟩ := hflat
    exact ⟨x, y, z, h0, commonFace_symm h1, commonFace_symm h2, commonFace_symm h3⟩
  obtain ⟨k, g, hk, ek, hside⟩ : ∃ k g, k < M.nf ∧ M.faces k = some g ∧ ((g.seed = q ∧ g.nbr = a.pair) ∨ (g.seed = a.pair ∧ g.nbr = q)) := by
    rcases hin with hin | hin
    · exact hM.faces q a.pair hin hp hqp hflat
    · obtain ⟨k, g, h1, h2, h3⟩ := hM.faces a.pair q hin hq hqp.symm hflat'
      exact ⟨k, g, h1, h2, h3.symm⟩
  obtain ⟨g', e', hgf, -⟩ := hM.face k hk
  rw [ek] at e'
  obtain rfl := Option.some.inj e'
  have htri' : ∀ z, InTri3 (Z.at a.s1) (Z.at a.s2) (Z.at a.s3) z ↔ CommonFace xs g.seed g.nbr z := by
    intro z
    rw [htri z]
    rcases hside with ⟨e1, e2⟩ | ⟨e1, e2⟩
    · rw [e1, e2]
    · rw [e1, e2]
      exact ⟨commonFace_symm, commonFace_symm⟩
  refine ⟨k, ⟨hk, g, ek, hside, face_of_triangle hM hgf htri'⟩, ?_⟩
  rintro k' ⟨hk', g', ek', hside', -⟩
  refine hM.once k' k g' g hk' hk ek' ek ?_
  rcases hside with ⟨e1, e2⟩ | ⟨e1, e2⟩ <;> rcases hside' with ⟨e1', e2'⟩ | ⟨e1', e2'⟩ <;> simp [e1, e2, e1', e2']

/-- **C106**: let the stored seeds be pairs as C39 describes them, the triangles watertight (C82), no sphere grazing a common point of three others, all other seeds outside the spheres, and let the seeds meet the
conditions of C105.  Then the mesh is generated, and for every triangle of the surface next to a cell it has exactly one face between the two seeds of the triangle, whose three vertices are the centres of its three spheres. -/
theorem C106_surface_in_mesh {Z : SphereSet} {face : Nat → Fin 3 → V3} {up lo : SeedTree} (h : StoredSeeds Z face up lo) (hg : NoGrazing Z) (hw : Watertight Z.S.num (lo.attr.map fun a => [a.s1, a.s2, a.s3])) (xs : List SeedRec)
    (hx : ∀ (q : Nat) (a : SeedAttr), (mergeSeedAttrs up lo)[q]? = some a → SeedsAround Z up lo xs 0 a) (hne : xs ≠ []) (hsize : ∀ s ∈ xs, 0 ≤ s.size)
    (hsep : ∀ i j, i < xs.length → j < xs.length → i ≠ j → 2e-5 ≤ euclid 3 (seedPos xs i) (seedPos xs j)) (hvc : VertexGap xs) (hfew : FewNearest xs)
    (hcell : ∀ i s, xs[i]? = some s → s.region ≠ 0 → 1e-11 ≤ 2 * s.size ∧ ∃ M, (∀ m, m ≤ M → GapPos (seedPos xs) xs.length (seedPos xs i) (10 * (2 * s.size * 2 ^ (m + 1))) ∧ SearchClear xs i (2 * s.size * 2 ^ (m + 1))) ∧
      ∀ z, InVoronoi xs i z → 2 * euclid 3 z (seedPos xs i) < 2 * s.size * 2 ^ (M + 1)) :
    ∃ F, ∀ fuel' fuel, F ≤ fuel' → F ≤ fuel → ∃ mesh, voroMesh xs fuel' fuel = some (some mesh) ∧ IsDiagramMesh xs mesh ∧ SurfaceInMesh Z up lo xs mesh := by
  obtain ⟨F, hF⟩ := C105_gap xs hne hsize hsep hvc hfew hcell
  refine ⟨F, fun fuel' fuel h1 h2 => ?_⟩
  obtain ⟨mesh, e1, e2⟩ := hF fuel' fuel h1 h2
  exact ⟨mesh, e1, e2, surface_in_mesh h hg hw hx e2⟩

end VoroCrust
