import Verif.Props.MeshGap
import Verif.Props.MeshVolume

/-!
# C103 for seeds that are not in general position
-/

namespace VoroCrust

open Classical MeasureTheory

variable {xs : List SeedRec} {M : VMesh} {i : Nat}

theorem perp_exists (d : Fin 3 → ℝ) : ∃ n : Fin 3 → ℝ, n ≠ 0 ∧ n 0 * d 0 + n 1 * d 1 + n 2 * d 2 = 0 := by
  by_cases h : d 0 = 0
  · refine ⟨![1, 0, 0], fun e => ?_, by simp [h]⟩
    have := congrFun e 0
    simp at this
  · refine ⟨![-d 1, d 0, 0], fun e => ?_, by simp; ring⟩
    have := congrFun e 1
    simp at this
    exact h this

/-- A plane through a point has no volume. -/
theorem plane_null {n p : Fin 3 → ℝ} (hn : n ≠ 0) {S : Set (Fin 3 → ℝ)} (hS : ∀ z ∈ S, n 0 * (z 0 - p 0) + n 1 * (z 1 - p 1) + n 2 * (z 2 - p 2) = 0) : volume S = 0 := by
  refine measure_mono_null (fun z hz => ?_) (hyperplane_null n (n 0 * p 0 + n 1 * p 1 + n 2 * p 2) hn)
  rw [Set.mem_ofPred_eq]
  linarith [hS z hz]

/-- There is no volume over a face whose points are all on a line. -/
theorem line_face_null (hd : DistinctSeeds xs) {y : Nat} (hi : i < xs.length) (hy : y < xs.length) (hyi : y ≠ i) (hno : ¬ FlatFace xs i y) : volume (facePyramid xs i y) = 0 := by
  have hcol : ∀ a b c : Fin 3 → ℝ, CommonFace xs i y (point3 a) → CommonFace xs i y (point3 b) → CommonFace xs i y (point3 c) →
      (b 0 - a 0) * (c 1 - a 1) - (b 1 - a 1) * (c 0 - a 0) = 0 ∧ (b 1 - a 1) * (c 2 - a 2) - (b 2 - a 2) * (c 1 - a 1) = 0 ∧ (b 2 - a 2) * (c 0 - a 0) - (b 0 - a 0) * (c 2 - a 2) = 0 := by
    intro a b c ha hb hc
    by_contra hcon
    refine hno ⟨point3 a, point3 b, point3 c, ?_, ha, hb, hc⟩
    unfold NotLine
    simp only [point3]
    simp only [Nat.ofNat_pos, dif_pos, Nat.one_lt_ofNat, Nat.lt_add_one]
    by_contra hno'
    push Not at hno'
    exact hcon hno'
  set p : Fin 3 → ℝ := (cellWalls xs i).p with hp
  have hin : (cellWalls xs i).g y p < 0 := by
    have e : p = coords (seedPos xs i) := rfl
    rw [e, cellWalls_coords]
    unfold excess
    have h0 : distSq3 (seedPos xs i) (seedPos xs i) = 0 := by unfold distSq3; ring
    have h1 := hd.apart i y hi hy hyi.symm
    rw [h0, distSq3_sq]
    have : 0 < euclid 3 (seedPos xs i) (seedPos xs y) ^ 2 := by positivity
    linarith
  rw [← cellWalls_pyramid]
  by_cases hone : ∃ a b, CommonFace xs i y (point3 a) ∧ CommonFace xs i y (point3 b) ∧ a ≠ b
  · obtain ⟨a, b, ha, hb, hab⟩ := hone
    -- the plane through the seed and the line
    set n : Fin 3 → ℝ := ![(a 1 - p 1) * (b 2 - p 2) - (a 2 - p 2) * (b 1 - p 1), (a 2 - p 2) * (b 0 - p 0) - (a 0 - p 0) * (b 2 - p 2), (a 0 - p 0) * (b 1 - p 1) - (a 1 - p 1) * (b 0 - p 0)] with hn
    have ga := ((cellWalls_face a).1 ha).2
    have gb := ((cellWalls_face b).1 hb).2
    have hn0 : n ≠ 0 := by
      intro e
      have e0 : (a 1 - p 1) * (b 2 - p 2) - (a 2 - p 2) * (b 1 - p 1) = 0 := by have := congrFun e 0; simpa [hn] using this
      have e1 : (a 2 - p 2) * (b 0 - p 0) - (a 0 - p 0) * (b 2 - p 2) = 0 := by have := congrFun e 1; simpa [hn] using this
      have e2 : (a 0 - p 0) * (b 1 - p 1) - (a 1 - p 1) * (b 0 - p 0) = 0 := by have := congrFun e 2; simpa [hn] using this
      have la : ∀ z, (cellWalls xs i).g y z - (cellWalls xs i).g y p = (cellWalls xs i).N y 0 * (z 0 - p 0) + (cellWalls xs i).N y 1 * (z 1 - p 1) + (cellWalls xs i).N y 2 * (z 2 - p 2) := fun z => by unfold Walls.g; ring
      have qa := la a
      have qb := la b
      rw [ga] at qa
      rw [gb] at qb
      apply hab
      have hw : 0 - (cellWalls xs i).g y p ≠ 0 := by linarith
      ext k
      apply mul_left_cancel₀ hw
      have : (0 - (cellWalls xs i).g y p) * (a k - p k) = (0 - (cellWalls xs i).g y p) * (b k - p k) := by
        nth_rewrite 1 [qb]
        rw [qa]
        fin_cases k
        · simp; linear_combination (cellWalls xs i).N y 1 * e2 - (cellWalls xs i).N y 2 * e1
        · simp; linear_combination -(cellWalls xs i).N y 0 * e2 + (cellWalls xs i).N y 2 * e0
        · simp; linear_combination (cellWalls xs i).N y 0 * e1 - (cellWalls xs i).N y 1 * e0
      linarith
    refine plane_null (p := p) hn0 fun z hz => ?_
    obtain ⟨f, hf, hfy, s, -, -, hl⟩ := hz
    obtain ⟨c0, c1, c2⟩ := hcol a b f ha hb ((cellWalls_face f).2 ⟨hf, hfy⟩)
    rw [hl 0, hl 1, hl 2]
    simp only [hn, Matrix.cons_val_zero, Matrix.cons_val_one, Matrix.cons_val_two, Matrix.head_cons, Matrix.tail_cons]
    rw [← hp]
    linear_combination (-s) * ((a 0 - p 0) * c1 + (a 1 - p 1) * c2 + (a 2 - p 2) * c0) * -1
  · push Not at hone
    by_cases hem : ∃ a, CommonFace xs i y (point3 a)
    · obtain ⟨a, ha⟩ := hem
      obtain ⟨n, hn, hna⟩ := perp_exists fun k => a k - p k
      refine plane_null (p := p) hn fun z hz => ?_
      obtain ⟨f, hf, hfy, s, -, -, hl⟩ := hz
      have := hone a f ha ((cellWalls_face f).2 ⟨hf, hfy⟩)
      rw [hl 0, hl 1, hl 2, ← this, ← hp]
      linear_combination s * hna
    · push Not at hem
      have : (cellWalls xs i).pyramid y = ∅ := by
        ext z
        simp only [Set.mem_empty_iff_false, iff_false]
        rintro ⟨f, hf, hfy, -⟩
        exact hem f ((cellWalls_face f).2 ⟨hf, hfy⟩)
      rw [this, measure_empty]

theorem diagram_corner {u : Nat → ℝ} (hu : IsDiagramVertex xs u) (hi : i < xs.length) (hc : InVoronoi xs i u) : (cellWalls xs i).Corner (coords u) := by
  obtain ⟨j, hjin, hj, huniq⟩ := hu
  have hjl := hjin.lt
  refine ⟨coords_cell hc, fun w hw => ?_⟩
  have hij : euclid 3 u (seedPos xs i) = euclid 3 u (seedPos xs j) := le_antisymm (hc j hjl) (hj i hi)
  have near : ∀ y, y < xs.length → euclid 3 u (seedPos xs j) = euclid 3 u (seedPos xs y) → euclid 3 (point3 w) (seedPos xs i) = euclid 3 (point3 w) (seedPos xs y) := by
    intro y hy e
    by_cases hyi : y = i
    · rw [hyi]
    · have := hw y (cellWalls_mem.2 ⟨hyi, hy⟩) (by rw [cellWalls_coords, excess_zero]; exact hij.trans e)
      rw [cellWalls_g, excess_zero] at this
      exact this
  have := huniq (point3 w) fun y hy hcf => (near j hjl rfl).symm.trans (near y hy hcf.2)
  ext k
  have h1 := this k k.2
  rw [← coords_point3 w]
  exact h1

/-- The mesh of C105 as a mesh of cells. -/
theorem IsDiagramMesh.cellMesh (hM : IsDiagramMesh xs M) (hd : DistinctSeeds xs) : CellMesh xs (FlatFace xs) M := by
  refine ⟨fun v hv => ?_, hM.distinct, hM.face, hM.faces, hM.once, fun i y hi hy hyi hno => line_face_null hd hi.lt hy hyi hno⟩
  obtain ⟨u, h1, h2⟩ := hM.vertex v hv
  exact ⟨u, h1, fun i hi hc => diagram_corner h2 hi.lt hc⟩

/-- **C103** for seeds with ties: the mesh, the lists of faces of the cells and the file for PFLOTRAN come about without undefined behaviour, and the file gives the volume of every Voronoi cell of a seed with a region and the area of every
face, one line for every two cells whose common points are not all on a line. -/
theorem C103_gap (xs ys : List SeedRec) (hxy : SameSeeds xs ys) (hsize : ∀ s ∈ xs, 0 ≤ s.size) (hsep : ∀ i j, i < xs.length → j < xs.length → i ≠ j → 2e-5 ≤ euclid 3 (seedPos xs i) (seedPos xs j))
    (hvc : VertexGap xs) (hfew : FewNearest xs) (hin : ∃ i, InnerSeed xs i)
    (hcell : ∀ i s, xs[i]? = some s → s.region ≠ 0 → 1e-11 ≤ 2 * s.size ∧ ∃ M, (∀ m, m ≤ M → GapPos (seedPos xs) xs.length (seedPos xs i) (10 * (2 * s.size * 2 ^ (m + 1))) ∧ SearchClear xs i (2 * s.size * 2 ^ (m + 1))) ∧
      ∀ z, InVoronoi xs i z → 2 * euclid 3 z (seedPos xs i) < 2 * s.size * 2 ^ (M + 1)) :
    ∃ F, ∀ fuel' fuel, F ≤ fuel' → F ≤ fuel → ∃ mesh cf k m file, voroMesh xs fuel' fuel = some (some mesh) ∧ IsDiagramMesh xs mesh ∧ cellFaces ys.length (regionAt ys) mesh.pairs = some (cf, k, m) ∧
      saveVcg ys mesh (listOf cf k) = some file ∧ VcgCells (FlatFace xs) xs ys file := by
  have hne : xs ≠ [] := by
    rintro rfl
    obtain ⟨i, s, hs, -⟩ := hin
    simp at hs
  obtain ⟨F, hF⟩ := C105_gap xs hne hsize hsep hvc hfew hcell
  refine ⟨F, fun fuel' fuel h1 h2 => ?_⟩
  obtain ⟨mesh, e1, e2⟩ := hF fuel' fuel h1 h2
  have hd : DistinctSeeds xs := ⟨fun i j hi hj hij => lt_of_lt_of_le (by norm_num) (hsep i j hi hj hij)⟩
  have hB : ∀ i, InnerSeed xs i → ∃ B : ℝ, ∀ z, InVoronoi xs i z → euclid 3 z (seedPos xs i) ≤ B := fun i ⟨s, hs, hr⟩ => by
    obtain ⟨-, M, -, hb⟩ := hcell i s hs hr
    exact ⟨2 * s.size * 2 ^ (M + 1) / 2, fun z hz => by linarith [hb z hz]⟩
  obtain ⟨cf, k, m, file, q1, q2, q3⟩ := vcg_of_mesh hxy hd hB hin (e2.cellMesh hd)
  exact ⟨mesh, cf, k, m, file, e1, e2, q1, q2, q3⟩

/-- **C103** for seeds with integer coordinates. -/
theorem C103_grid (xs ys : List SeedRec) (hxy : SameSeeds xs ys) (hsize : ∀ s ∈ xs, 0 ≤ s.size) (hgrid : ∀ i, i < xs.length → OnGrid (seedPos xs) xs.length (seedPos xs i)) (hs : SeedsApart (seedPos xs) xs.length) (hfew : FewNearest xs)
    (hin : ∃ i, InnerSeed xs i)
    (hcell : ∀ i s, xs[i]? = some s → s.region ≠ 0 → (∃ r : Nat, 2 * s.size = (r : ℝ)) ∧ s.size ≤ 250 ∧ ∀ z, InVoronoi xs i z → euclid 3 z (seedPos xs i) < 2 * s.size) :
    ∃ F, ∀ fuel' fuel, F ≤ fuel' → F ≤ fuel → ∃ mesh cf k m file, voroMesh xs fuel' fuel = some (some mesh) ∧ IsDiagramMesh xs mesh ∧ cellFaces ys.length (regionAt ys) mesh.pairs = some (cf, k, m) ∧
      saveVcg ys mesh (listOf cf k) = some file ∧ VcgCells (FlatFace xs) xs ys file := by
  have hne : xs ≠ [] := by
    rintro rfl
    obtain ⟨i, s, hs, -⟩ := hin
    simp at hs
  obtain ⟨F, hF⟩ := C105_grid xs hne hsize hgrid hs hfew hcell
  refine ⟨F, fun fuel' fuel h1 h2 => ?_⟩
  obtain ⟨mesh, e1, e2⟩ := hF fuel' fuel h1 h2
  have hd : DistinctSeeds xs := ⟨fun i j hi hj hij => by
    refine lt_of_le_of_ne (euclid_nonneg 3 _ _) fun e => hij (hs i j hi hj (dist_zero.1 ?_))
    rw [distSq3_sq, ← e]
    norm_num⟩
  have hB : ∀ i, InnerSeed xs i → ∃ B : ℝ, ∀ z, InVoronoi xs i z → euclid 3 z (seedPos xs i) ≤ B := fun i ⟨s, hs, hr⟩ => ⟨2 * s.size, fun z hz => ((hcell i s hs hr).2.2 z hz).le⟩
  obtain ⟨cf, k, m, file, q1, q2, q3⟩ := vcg_of_mesh hxy hd hB hin (e2.cellMesh hd)
  exact ⟨mesh, cf, k, m, file, e1, e2, q1, q2, q3⟩

end VoroCrust
