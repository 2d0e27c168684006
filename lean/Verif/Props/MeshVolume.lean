import Verif.Props.MeshMain
import Verif.Props.Vcg
import Verif.Lemmas.Fan

/-!
# C103: the volumes and areas in the file for PFLOTRAN are those of the Voronoi cells and faces

`volume` is Lebesgue measure on `Fin 3 → ℝ`.
-/

namespace VoroCrust

open Classical MeasureTheory

/-- The point with three coordinates. -/
noncomputable def point3 (z : Fin 3 → ℝ) : Nat → ℝ := fun k => if h : k < 3 then z ⟨k, h⟩ else 0

/-- The three coordinates of a point. -/
def coords (u : Nat → ℝ) : Fin 3 → ℝ := fun k => u k

/-- The Voronoi cell of a seed as a set of space. -/
def voronoiCell (xs : List SeedRec) (i : Nat) : Set (Fin 3 → ℝ) := {z | InVoronoi xs i (point3 z)}

/-- The pyramid with the seed `i` as apex over the common face of the cells of `i` and `y`. -/
def facePyramid (xs : List SeedRec) (i y : Nat) : Set (Fin 3 → ℝ) :=
  {z | ∃ f : Fin 3 → ℝ, CommonFace xs i y (point3 f) ∧ ∃ s : ℝ, 0 ≤ s ∧ s ≤ 1 ∧ ∀ k : Fin 3, z k = seedPos xs i k + s * (f k - seedPos xs i k)}

theorem point3_coords (u : Nat → ℝ) : ∀ k, k < 3 → point3 (coords u) k = u k := by
  intro k hk
  simp [point3, coords, hk]

theorem coords_point3 (z : Fin 3 → ℝ) : coords (point3 z) = z := by
  ext k
  simp [point3, coords]

/-- The bisectors as walls around a seed. -/
noncomputable def cellWalls (xs : List SeedRec) (i : Nat) : Walls where
  S := (Finset.range xs.length).erase i
  N y k := 2 * (seedPos xs y k - seedPos xs i k)
  c y := seedPos xs i 0 ^ 2 + seedPos xs i 1 ^ 2 + seedPos xs i 2 ^ 2 - (seedPos xs y 0 ^ 2 + seedPos xs y 1 ^ 2 + seedPos xs y 2 ^ 2)
  p := coords (seedPos xs i)

variable {xs : List SeedRec} {i : Nat}

theorem cellWalls_mem {y : Nat} : y ∈ (cellWalls xs i).S ↔ y ≠ i ∧ y < xs.length := by
  unfold cellWalls
  simp

theorem cellWalls_g (y : Nat) (z : Fin 3 → ℝ) : (cellWalls xs i).g y z = excess (seedPos xs) i y (point3 z) := by
  unfold Walls.g excess distSq3 cellWalls point3
  simp
  ring

theorem cellWalls_coords (y : Nat) (u : Nat → ℝ) : (cellWalls xs i).g y (coords u) = excess (seedPos xs) i y u := by
  rw [cellWalls_g, excess_congr (point3_coords u)]

theorem cellWalls_P : (cellWalls xs i).P = voronoiCell xs i := by
  ext z
  simp only [Walls.P, voronoiCell, Set.mem_ofPred_eq, InVoronoi, cellWalls_mem, cellWalls_g, excess_le]
  constructor
  · intro h y hy
    by_cases e : y = i
    · rw [e]
    · exact h y ⟨e, hy⟩
  · rintro h y ⟨-, hy⟩
    exact h y hy

theorem cellWalls_face {y : Nat} (z : Fin 3 → ℝ) : CommonFace xs i y (point3 z) ↔ z ∈ (cellWalls xs i).P ∧ (cellWalls xs i).g y z = 0 := by
  rw [cellWalls_P, cellWalls_g, excess_zero]
  rfl

theorem cellWalls_pyramid (y : Nat) : (cellWalls xs i).pyramid y = facePyramid xs i y := by
  ext z
  simp only [Walls.pyramid, facePyramid, Set.mem_ofPred_eq, cellWalls_face, and_assoc]
  rfl

/-- No two seeds at one place. -/
structure DistinctSeeds (xs : List SeedRec) : Prop where
  apart : ∀ i j, i < xs.length → j < xs.length → i ≠ j → 0 < euclid 3 (seedPos xs i) (seedPos xs j)

theorem cellWalls_proper (h : DistinctSeeds xs) (hi : i < xs.length) (hB : ∃ B : ℝ, ∀ z, InVoronoi xs i z → euclid 3 z (seedPos xs i) ≤ B) : (cellWalls xs i).Proper := by
  have hpos : ∀ {y : Nat}, y ∈ (cellWalls xs i).S → 0 < distSq3 (seedPos xs i) (seedPos xs y) := fun {y} hy => by
    rw [cellWalls_mem] at hy
    rw [distSq3_sq]
    have := h.apart i y hi hy.2 hy.1.symm
    positivity
  have gp : ∀ y, (cellWalls xs i).g y (cellWalls xs i).p = -distSq3 (seedPos xs i) (seedPos xs y) := by
    intro y
    have : (cellWalls xs i).p = coords (seedPos xs i) := rfl
    rw [this, cellWalls_coords]
    unfold excess distSq3
    ring
  refine ⟨?_, fun y hy => ?_, fun y hy y' hy' hne => ?_⟩
  · obtain ⟨B, hB⟩ := hB
    refine ⟨B + |seedPos xs i 0| + |seedPos xs i 1| + |seedPos xs i 2|, fun z hz k => ?_⟩
    rw [cellWalls_P] at hz
    have h1 := hB _ hz
    have h2 : |z k - seedPos xs i k| ≤ euclid 3 (point3 z) (seedPos xs i) := by
      rw [← sqrt_distSq3]
      apply Real.abs_le_sqrt
      unfold distSq3 point3
      fin_cases k <;> simp <;> nlinarith [mul_self_nonneg (z 0 - seedPos xs i 0), mul_self_nonneg (z 1 - seedPos xs i 1), mul_self_nonneg (z 2 - seedPos xs i 2)]
    have h3 : |z k| ≤ |z k - seedPos xs i k| + |seedPos xs i k| := by
      have := abs_add_le (z k - seedPos xs i k) (seedPos xs i k)
      rwa [sub_add_cancel] at this
    have h4 : |seedPos xs i k| ≤ |seedPos xs i 0| + |seedPos xs i 1| + |seedPos xs i 2| := by
      have a0 := abs_nonneg (seedPos xs i 0)
      have a1 := abs_nonneg (seedPos xs i 1)
      have a2 := abs_nonneg (seedPos xs i 2)
      fin_cases k <;> simp <;> linarith
    linarith
  · rw [gp]
    linarith [hpos hy]
  · set V : Fin 3 → ℝ := fun k => (seedPos xs y' k - seedPos xs i k) * distSq3 (seedPos xs i) (seedPos xs y) - (seedPos xs y k - seedPos xs i k) * distSq3 (seedPos xs i) (seedPos xs y') with hV
    refine ⟨fun k => seedPos xs i k + V k, ?_⟩
    rw [gp, gp]
    intro heq
    have hyy : 0 < distSq3 (seedPos xs y) (seedPos xs y') := by
      rw [distSq3_sq]
      have := h.apart y y' (cellWalls_mem.1 hy).2 (cellWalls_mem.1 hy').2 hne
      positivity
    have key : (cellWalls xs i).g y (fun k => seedPos xs i k + V k) * -distSq3 (seedPos xs i) (seedPos xs y') - (cellWalls xs i).g y' (fun k => seedPos xs i k + V k) * -distSq3 (seedPos xs i) (seedPos xs y) =
        2 * (distSq3 (seedPos xs i) (seedPos xs y) * distSq3 (seedPos xs i) (seedPos xs y') * distSq3 (seedPos xs y) (seedPos xs y')) := by
      unfold Walls.g cellWalls
      simp only [hV, distSq3]
      norm_num
      ring
    have := mul_pos (mul_pos (hpos hy) (hpos hy')) hyy
    linarith

/-- Where three walls of a bounded cell meet and no fourth one, no other point is on the three. -/
theorem corner_of_three (h : DistinctSeeds xs) (hvc : VertexClear (seedPos xs) xs.length) (hi : i < xs.length) (hB : ∃ B : ℝ, ∀ z, InVoronoi xs i z → euclid 3 z (seedPos xs i) ≤ B) {z : Fin 3 → ℝ} (hz : z ∈ (cellWalls xs i).P)
    {a b c : Nat} (ha : a ∈ (cellWalls xs i).S) (hb : b ∈ (cellWalls xs i).S) (hc : c ∈ (cellWalls xs i).S) (hab : a ≠ b) (hac : a ≠ c) (hbc : b ≠ c) (ga : (cellWalls xs i).g a z = 0) (gb : (cellWalls xs i).g b z = 0)
    (gc : (cellWalls xs i).g c z = 0) : (cellWalls xs i).Corner z := by
  have hW := cellWalls_proper h hi hB
  have four : ∀ w ∈ (cellWalls xs i).P, (cellWalls xs i).g a w = 0 → (cellWalls xs i).g b w = 0 → (cellWalls xs i).g c w = 0 → ∀ d ∈ (cellWalls xs i).S, (cellWalls xs i).g d w = 0 → d = a ∨ d = b ∨ d = c := by
    intro w hw ga gb gc d hd gd
    rw [cellWalls_g, excess_zero] at ga gb gc gd
    rw [cellWalls_P] at hw
    by_contra hcon
    push Not at hcon
    obtain ⟨ha, ha'⟩ := cellWalls_mem.1 ha
    obtain ⟨hb, hb'⟩ := cellWalls_mem.1 hb
    obtain ⟨hc, hc'⟩ := cellWalls_mem.1 hc
    obtain ⟨hd, hd'⟩ := cellWalls_mem.1 hd
    have := hvc i a b c d (point3 w) hi ha' hb' hc' hd' ha.symm hb.symm hc.symm hab hac hbc hd hcon.1 hcon.2.1 hcon.2.2 ga gb gc hw
    rw [← gd] at this
    norm_num at this
  refine ⟨hz, fun u hu => ?_⟩
  by_contra hne
  -- a point near `z` on the way to `u` is in the cell
  obtain ⟨t, ht, hq⟩ : ∃ t : ℝ, 0 < t ∧ (fun k => z k + t * (u k - z k)) ∈ (cellWalls xs i).P := by
    have hev : ∀ y ∈ (cellWalls xs i).S, ∃ τ : ℝ, 0 < τ ∧ ∀ t, 0 < t → t ≤ τ → (cellWalls xs i).g y (fun k => z k + t * (u k - z k)) ≤ 0 := by
      intro y hy
      have hl : ∀ t : ℝ, (cellWalls xs i).g y (fun k => z k + t * (u k - z k)) = (cellWalls xs i).g y z + t * ((cellWalls xs i).g y u - (cellWalls xs i).g y z) := fun t => (cellWalls xs i).g_line y fun k => rfl
      by_cases e : (cellWalls xs i).g y z = 0
      · refine ⟨1, one_pos, fun t _ _ => ?_⟩
        rw [hl, e, hu y hy e]
        simp
      · have hneg : (cellWalls xs i).g y z < 0 := lt_of_le_of_ne (hz y hy) e
        refine ⟨-(cellWalls xs i).g y z / (1 + |(cellWalls xs i).g y u - (cellWalls xs i).g y z|), div_pos (by linarith) (by positivity), fun t ht hle => ?_⟩
        rw [hl]
        rw [le_div_iff₀ (by positivity)] at hle
        have := le_abs_self ((cellWalls xs i).g y u - (cellWalls xs i).g y z)
        nlinarith
    choose! τ hτ hτ' using hev
    have hfin : ∃ t : ℝ, 0 < t ∧ ∀ y ∈ (cellWalls xs i).S, t ≤ τ y := by
      obtain ⟨y0, hy0, hmin⟩ := Finset.exists_min_image (cellWalls xs i).S τ ⟨a, ha⟩
      exact ⟨τ y0, hτ y0 hy0, hmin⟩
    obtain ⟨t, ht, hle⟩ := hfin
    exact ⟨t, ht, fun y hy => hτ' y hy t ht (hle y hy)⟩
  have hzq : z ≠ fun k => z k + t * (u k - z k) := fun e => by
    apply hne
    ext k
    have := congrFun e k
    have this : z k = z k + t * (u k - z k) := this
    have h1 : t * (u k - z k) = 0 := by linarith
    linarith [(mul_eq_zero.1 h1).resolve_left ht.ne']
  obtain ⟨y, hy, f, hf, s, hs, -, hyf, hyz, hl⟩ := hW.exit hz hq hzq
  have zero : ∀ w ∈ (cellWalls xs i).S, (cellWalls xs i).g w z = 0 → (cellWalls xs i).g w f = 0 := fun w hw e => by
    have h1 := (cellWalls xs i).g_line w hl
    have h2 := (cellWalls xs i).g_line w (o := z) (f := u) (q := fun k => z k + t * (u k - z k)) fun k => rfl
    rw [h2, e, hu w hw e] at h1
    simp only [sub_zero, mul_zero, zero_add] at h1
    exact (mul_eq_zero.1 h1.symm).resolve_left hs.ne'
  rcases four f hf (zero a ha ga) (zero b hb gb) (zero c hc gc) y hy hyf with rfl | rfl | rfl <;> linarith

/-! ## The faces -/

/-- The place of a vertex. -/
noncomputable def VMesh.place (M : VMesh) (v : Nat) : Fin 3 → ℝ := match M.vertices v with | some u => coords u | none => 0

/-- A face of the cell of a seed as a fan. -/
noncomputable def VMesh.fan (M : VMesh) (i : Nat) (g : MeshFace) : Fan := ⟨if g.seed = i then g.nbr else g.seed, g.verts.map M.place⟩

variable {M : VMesh}

theorem place_eq {v : Nat} {u : Nat → ℝ} (h : M.vertices v = some u) : M.place v = coords u := by
  unfold VMesh.place
  rw [h]

theorem commonFace_on {j y e : Nat} {u : Nat → ℝ} (hu : CommonFace xs j y u) (he : CommonFace xs j e u) (hi : i = j ∨ i = y) : excess (seedPos xs) i e u = 0 := by
  rw [excess_zero]
  rcases hi with rfl | rfl
  · exact he.2
  · rw [← hu.2]; exact he.2

/-- What the volumes need of a mesh: its vertices are corners of the cells, and its faces are the common faces of the pairs of cells selected by `Q`; there is no volume over the others. -/
structure CellMesh (xs : List SeedRec) (Q : Nat → Nat → Prop) (M : VMesh) : Prop where
  vertex : ∀ v, v < M.nv → ∃ u, M.vertices v = some u ∧ ∀ i, InnerSeed xs i → InVoronoi xs i u → (cellWalls xs i).Corner (coords u)
  distinct : ∀ v v' u u', v < M.nv → v' < M.nv → M.vertices v = some u → M.vertices v' = some u' → (∀ k, k < 3 → u k = u' k) → v = v'
  face : ∀ k, k < M.nf → ∃ g, M.faces k = some g ∧ IsVoronoiFace xs M g ∧ Q g.seed g.nbr
  faces : ∀ i y, InnerSeed xs i → y < xs.length → y ≠ i → Q i y → ∃ k g, k < M.nf ∧ M.faces k = some g ∧ ((g.seed = i ∧ g.nbr = y) ∨ (g.seed = y ∧ g.nbr = i))
  once : ∀ k k' g g', k < M.nf → k' < M.nf → M.faces k = some g → M.faces k' = some g' → (g.seed = g'.seed ∧ g.nbr = g'.nbr) ∨ (g.seed = g'.nbr ∧ g.nbr = g'.seed) → k = k'
  rest : ∀ i y, InnerSeed xs i → y < xs.length → y ≠ i → ¬ Q i y → volume (facePyramid xs i y) = 0

theorem InnerSeed.lt (h : InnerSeed xs i) : i < xs.length := by
  obtain ⟨s, hs, -⟩ := h
  exact (List.getElem?_eq_some_iff.1 hs).1

theorem coords_cell {u : Nat → ℝ} (hc : InVoronoi xs i u) : coords u ∈ (cellWalls xs i).P := by
  rw [cellWalls_P]
  intro y hy
  have := hc y hy
  rw [← sqrt_distSq3, ← sqrt_distSq3] at this ⊢
  rwa [distSq3_congr (point3_coords u), distSq3_congr (point3_coords u)]

/-- The Voronoi mesh of seeds in general position. -/
theorem IsVoronoiMesh.cellMesh (hM : IsVoronoiMesh xs M) (h : DistinctSeeds xs) (hvc : VertexClear (seedPos xs) xs.length) (hB : ∀ i, InnerSeed xs i → ∃ B : ℝ, ∀ z, InVoronoi xs i z → euclid 3 z (seedPos xs i) ≤ B) :
    CellMesh xs (fun i y => ∃ z, CommonFace xs i y z) M := by
  refine ⟨fun v hv => ?_, hM.distinct, fun k hk => ?_, fun i y hi hy hyi ⟨z, hz⟩ => hM.faces i y z hi hy hyi hz, hM.once, fun i y _ _ _ hno => ?_⟩
  · obtain ⟨u, h1, j, a, b, c, ⟨s, hs, -⟩, ⟨ha, ha'⟩, ⟨hb, hb'⟩, ⟨hc', hc''⟩, hab, hac, hbc, fa, fb, fc⟩ := hM.vertex v hv
    refine ⟨u, h1, fun i hin hc => ?_⟩
    have hi := hin.lt
    have hj : j < xs.length := (List.getElem?_eq_some_iff.1 hs).1
    -- the seeds as near as the nearest
    have near : ∀ e, e < xs.length → euclid 3 u (seedPos xs j) = euclid 3 u (seedPos xs e) → (cellWalls xs i).g e (coords u) = 0 := by
      intro e he hje
      rw [cellWalls_coords, excess_zero]
      exact le_antisymm (hc e he) (hje ▸ fa.1 i hi)
    have three : ∀ {a b c : Nat}, a ≠ i → b ≠ i → c ≠ i → a < xs.length → b < xs.length → c < xs.length → a ≠ b → a ≠ c → b ≠ c → euclid 3 u (seedPos xs j) = euclid 3 u (seedPos xs a) →
        euclid 3 u (seedPos xs j) = euclid 3 u (seedPos xs b) → euclid 3 u (seedPos xs j) = euclid 3 u (seedPos xs c) → (cellWalls xs i).Corner (coords u) := fun {a b c} na nb nc la lb lc dab dac dbc ea eb ec =>
      corner_of_three h hvc hi (hB i hin) (coords_cell hc) (cellWalls_mem.2 ⟨na, la⟩) (cellWalls_mem.2 ⟨nb, lb⟩) (cellWalls_mem.2 ⟨nc, lc⟩) dab dac dbc (near a la ea) (near b lb eb) (near c lc ec)
    by_cases ea : a = i
    · subst ea
      exact three ha'.symm hab.symm hac.symm hj hb hc' hb'.symm hc''.symm hbc rfl fb.2 fc.2
    by_cases eb : b = i
    · subst eb
      exact three ea hb'.symm hbc.symm ha hj hc' ha' hac hc''.symm fa.2 rfl fc.2
    by_cases ec : c = i
    · subst ec
      exact three ea eb hc''.symm ha hb hj hab ha' hb' fa.2 fb.2 rfl
    · exact three ea eb ec ha hb hc' hab hac hbc fa.2 fb.2 fc.2
  · obtain ⟨g, e, hg⟩ := hM.face k hk
    refine ⟨g, e, hg, ?_⟩
    have h3 := hg.three
    have h0 : g.verts[0]? = some g.verts[0] := List.getElem?_eq_getElem (by omega)
    obtain ⟨u, hu, -⟩ := hM.vertex g.verts[0] (hg.verts _ (List.mem_of_getElem? h0))
    exact ⟨u, (hg.hull u).1 ⟨u, subset_convexHull ℝ _ ⟨g.verts[0], List.mem_of_getElem? h0, hu⟩, fun _ _ => rfl⟩⟩
  · have : facePyramid xs i y = ∅ := by
      rw [← cellWalls_pyramid]
      ext z
      simp only [Set.mem_empty_iff_false, iff_false]
      rintro ⟨f, hf, hfy, -⟩
      exact hno ⟨point3 f, (cellWalls_face f).2 ⟨hf, hfy⟩⟩
    rw [this, measure_empty]

variable {Q : Nat → Nat → Prop}

/-- A face of the mesh is a fan of the polytope. -/
theorem fan_ok (hM : CellMesh xs Q M) {g : MeshFace} (hg : IsVoronoiFace xs M g) (hi : InnerSeed xs i) (hgi : g.seed = i ∨ g.nbr = i) : (cellWalls xs i).FanOK (M.fan i g) := by
  have hy : ∀ {u : Nat → ℝ}, CommonFace xs g.seed g.nbr u → CommonFace xs i (M.fan i g).y u := fun {u} hu => by
    unfold VMesh.fan
    rcases hgi with e | e
    · simp only [e, if_true]; rw [e] at hu; exact hu
    · by_cases e' : g.seed = i
      · exact absurd (e.trans e'.symm) hg.ne
      · simp only [if_neg e']; rw [e] at hu; exact commonFace_symm hu
  have hy' : ∀ {u : Nat → ℝ}, CommonFace xs i (M.fan i g).y u → CommonFace xs g.seed g.nbr u := fun {u} hu => by
    unfold VMesh.fan at hu
    rcases hgi with e | e
    · simp only [e, if_true] at hu; rw [e]; exact hu
    · by_cases e' : g.seed = i
      · exact absurd (e.trans e'.symm) hg.ne
      · simp only [if_neg e'] at hu; rw [e]; exact commonFace_symm hu
  have hwall : (M.fan i g).y ≠ i ∧ (M.fan i g).y < xs.length := by
    unfold VMesh.fan
    rcases hgi with e | e
    · simp only [e, if_true]; exact ⟨e ▸ hg.ne, hg.nbr⟩
    · by_cases e' : g.seed = i
      · exact absurd (e.trans e'.symm) hg.ne
      · simp only [if_neg e']
        obtain ⟨s, hs, -⟩ := hg.seed
        exact ⟨e', (List.getElem?_eq_some_iff.1 hs).1⟩
  have hother : ∀ e, e ≠ g.seed → e ≠ g.nbr → e ≠ i ∧ e ≠ (M.fan i g).y := by
    intro e h1 h2
    unfold VMesh.fan
    rcases hgi with k | k
    · simp only [k, if_true]; exact ⟨k ▸ h1, h2⟩
    · by_cases k' : g.seed = i
      · exact absurd (k.trans k'.symm) hg.ne
      · simp only [if_neg k']; exact ⟨k ▸ h2, h1⟩
  have hvert : ∀ v ∈ g.verts, ∃ u, M.vertices v = some u ∧ (∀ i, InnerSeed xs i → InVoronoi xs i u → (cellWalls xs i).Corner (coords u)) ∧ CommonFace xs g.seed g.nbr u := by
    intro v hv
    obtain ⟨u, h1, h2⟩ := hM.vertex v (hg.verts v hv)
    exact ⟨u, h1, h2, (hg.hull u).1 ⟨u, subset_convexHull ℝ _ ⟨v, hv, h1⟩, fun _ _ => rfl⟩⟩
  refine ⟨cellWalls_mem.2 hwall, ?_, ?_, ?_, ?_, ?_⟩
  · have := hg.three
    simpa [VMesh.fan] using this
  · unfold VMesh.fan
    refine (List.nodup_map_iff_inj_on hg.nodup).2 fun v hv v' hv' e => ?_
    obtain ⟨u, h1, -⟩ := hvert v hv
    obtain ⟨u', h1', -⟩ := hvert v' hv'
    rw [place_eq h1, place_eq h1'] at e
    exact hM.distinct v v' u u' (hg.verts v hv) (hg.verts v' hv') h1 h1' fun k hk => congrFun e ⟨k, hk⟩
  · intro w hw
    obtain ⟨v, hv, rfl⟩ := List.mem_map.1 hw
    obtain ⟨u, h1, h2, h3⟩ := hvert v hv
    rw [place_eq h1]
    have hc := hy h3
    refine ⟨h2 i hi hc.1, ?_⟩
    rw [cellWalls_coords, excess_zero]
    exact hc.2
  · intro z hz hzy
    obtain ⟨p, hp, hpz⟩ := (hg.hull (point3 z)).2 (hy' ((cellWalls_face z).2 ⟨hz, hzy⟩))
    set L : (Nat → ℝ) →ₗ[ℝ] (Fin 3 → ℝ) := { toFun := coords, map_add' := fun _ _ => rfl, map_smul' := fun _ _ => rfl } with hL
    have himg : z ∈ L '' convexHull ℝ {u | ∃ v ∈ g.verts, M.vertices v = some u} := by
      refine ⟨p, hp, ?_⟩
      ext k
      have := hpz k k.2
      change p k = z k
      rw [this]
      simp [point3]
    rw [LinearMap.image_convexHull] at himg
    refine convexHull_mono ?_ himg
    rintro _ ⟨u, ⟨v, hv, h1⟩, rfl⟩
    exact List.mem_map.2 ⟨v, hv, place_eq h1⟩
  · intro t w w' ht ht'
    have hlen : (M.fan i g).vs.length = g.verts.length := by simp [VMesh.fan]
    rw [hlen] at ht'
    have ht : (g.verts.map M.place)[t]? = some w := ht
    have ht' : (g.verts.map M.place)[(t + 1) % g.verts.length]? = some w' := ht'
    rw [List.getElem?_map, Option.map_eq_some_iff] at ht ht'
    obtain ⟨v, hv, rfl⟩ := ht
    obtain ⟨v', hv', rfl⟩ := ht'
    obtain ⟨u, h1, -, h3⟩ := hvert v (List.mem_of_getElem? hv)
    obtain ⟨u', h1', -, h3'⟩ := hvert v' (List.mem_of_getElem? hv')
    obtain ⟨e, he, hes, hen, hu, hu'⟩ := hg.edge t v v' u u' hv hv' h1 h1'
    obtain ⟨k1, k2⟩ := hother e hes hen
    refine ⟨e, cellWalls_mem.2 ⟨k1, he⟩, k2, ?_, ?_⟩
    · rw [place_eq h1, cellWalls_coords]
      exact commonFace_on h3 hu (hgi.imp Eq.symm Eq.symm)
    · rw [place_eq h1', cellWalls_coords]
      exact commonFace_on h3' hu' (hgi.imp Eq.symm Eq.symm)

/-! ## Areas and volumes -/

/-- The tetrahedron over a triangle of a bisector: a third of the area times half the distance of the seeds. -/
theorem tetra_area {x y o a b : Nat → ℝ} (hxy : 0 < distSq3 x y) (ho : distSq3 o x = distSq3 o y) (ha : distSq3 a x = distSq3 a y) (hb : distSq3 b x = distSq3 b y) :
    |det3 (coords o - coords x) (coords a - coords x) (coords b - coords x)| / 6 = sidesArea o a b * (euclid 3 x y / 2) / 3 := by
  rw [← crossAt_sides, ← sqrt_distSq3]
  set C0 := crossAt o a b 0 with h0
  set C1 := crossAt o a b 1 with h1
  set C2 := crossAt o a b 2 with h2
  set Y0 := y 0 - x 0 with k0
  set Y1 := y 1 - x 1 with k1
  set Y2 := y 2 - x 2 with k2
  have e0 : C0 = (a 1 - o 1) * (b 2 - o 2) - (a 2 - o 2) * (b 1 - o 1) := by rw [h0]; simp [crossAt]
  have e1 : C1 = (a 2 - o 2) * (b 0 - o 0) - (a 0 - o 0) * (b 2 - o 2) := by rw [h1]; simp [crossAt]
  have e2 : C2 = (a 0 - o 0) * (b 1 - o 1) - (a 1 - o 1) * (b 0 - o 0) := by rw [h2]; simp [crossAt]
  unfold distSq3 at ho ha hb
  have bo : 2 * ((o 0 - x 0) * Y0 + (o 1 - x 1) * Y1 + (o 2 - x 2) * Y2) = Y0 ^ 2 + Y1 ^ 2 + Y2 ^ 2 := by rw [k0, k1, k2]; linarith
  have ba : (a 0 - o 0) * Y0 + (a 1 - o 1) * Y1 + (a 2 - o 2) * Y2 = 0 := by rw [k0, k1, k2]; linarith
  have bb : (b 0 - o 0) * Y0 + (b 1 - o 1) * Y1 + (b 2 - o 2) * Y2 = 0 := by rw [k0, k1, k2]; linarith
  have x0 : C1 * Y2 - C2 * Y1 = 0 := by rw [e1, e2]; linear_combination (b 0 - o 0) * ba - (a 0 - o 0) * bb
  have x1 : C2 * Y0 - C0 * Y2 = 0 := by rw [e0, e2]; linear_combination (b 1 - o 1) * ba - (a 1 - o 1) * bb
  have x2 : C0 * Y1 - C1 * Y0 = 0 := by rw [e0, e1]; linear_combination (b 2 - o 2) * ba - (a 2 - o 2) * bb
  have hdet : det3 (coords o - coords x) (coords a - coords x) (coords b - coords x) = (o 0 - x 0) * C0 + (o 1 - x 1) * C1 + (o 2 - x 2) * C2 := by
    rw [e0, e1, e2]
    simp [det3, coords]
    ring
  have hpar : ((o 0 - x 0) * C0 + (o 1 - x 1) * C1 + (o 2 - x 2) * C2) * (Y0 ^ 2 + Y1 ^ 2 + Y2 ^ 2) = ((o 0 - x 0) * Y0 + (o 1 - x 1) * Y1 + (o 2 - x 2) * Y2) * (C0 * Y0 + C1 * Y1 + C2 * Y2) := by
    linear_combination ((o 0 - x 0) * Y1 - (o 1 - x 1) * Y0) * x2 + ((o 1 - x 1) * Y2 - (o 2 - x 2) * Y1) * x0 + ((o 2 - x 2) * Y0 - (o 0 - x 0) * Y2) * x1
  have hlag : (C0 * Y0 + C1 * Y1 + C2 * Y2) ^ 2 = (C0 * C0 + C1 * C1 + C2 * C2) * (Y0 ^ 2 + Y1 ^ 2 + Y2 ^ 2) := by
    linear_combination -(C1 * Y2 - C2 * Y1) * x0 - (C2 * Y0 - C0 * Y2) * x1 - (C0 * Y1 - C1 * Y0) * x2
  have hY : distSq3 x y = Y0 ^ 2 + Y1 ^ 2 + Y2 ^ 2 := by rw [k0, k1, k2]; unfold distSq3; ring
  rw [hdet, hY]
  unfold length3
  rw [← h0, ← h1, ← h2]
  have habs : |(o 0 - x 0) * C0 + (o 1 - x 1) * C1 + (o 2 - x 2) * C2| = Real.sqrt (C0 * C0 + C1 * C1 + C2 * C2) * Real.sqrt (Y0 ^ 2 + Y1 ^ 2 + Y2 ^ 2) / 2 := by
    have hd : (o 0 - x 0) * C0 + (o 1 - x 1) * C1 + (o 2 - x 2) * C2 = (C0 * Y0 + C1 * Y1 + C2 * Y2) / 2 := by
      apply mul_right_cancel₀ (hY ▸ hxy.ne')
      rw [hpar]
      linear_combination ((C0 * Y0 + C1 * Y1 + C2 * Y2) / 2) * bo
    rw [hd, abs_div, ← Real.sqrt_sq_eq_abs, hlag, Real.sqrt_mul (add_nonneg (add_nonneg (mul_self_nonneg C0) (mul_self_nonneg C1)) (mul_self_nonneg C2)), abs_two]
  rw [habs]
  ring

theorem fanSides_sum (o : Nat → ℝ) (l : List (Nat → ℝ)) : fanSides o l = ∑ t ∈ Finset.range (l.length - 1), sidesArea o (l.getD t 0) (l.getD (t + 1) 0) := by
  induction l with
  | nil => simp [fanSides]
  | cons a l ih =>
    cases l with
    | nil => simp [fanSides]
    | cons b r =>
      simp only [fanSides]
      rw [ih]
      have : (a :: b :: r).length - 1 = ((b :: r).length - 1) + 1 := by simp
      rw [this, Finset.sum_range_succ', add_comm]
      simp

theorem map_place {vs : List Nat} {ps : List (Nat → ℝ)} (h : List.Forall₂ (fun v p => M.vertices v = some p) vs ps) : vs.map M.place = ps.map coords := by
  induction h with
  | nil => rfl
  | cons e _ ih => simp [place_eq e, ih]

/-- The volume of the pyramid over a face of the mesh, from the area of the polygon of its vertices. -/
theorem face_volume (h : DistinctSeeds xs) (hM : CellMesh xs Q M) {g : MeshFace} (hg : IsVoronoiFace xs M g) (hi : InnerSeed xs i) (hgi : g.seed = i ∨ g.nbr = i)
    (hB : ∃ B : ℝ, ∀ z, InVoronoi xs i z → euclid 3 z (seedPos xs i) ≤ B) {ps : List (Nat → ℝ)} (hps : List.Forall₂ (fun v p => M.vertices v = some p) g.verts ps) :
    volume (facePyramid xs i (M.fan i g).y) = ENNReal.ofReal (polygonArea ps * (euclid 3 (seedPos xs g.seed) (seedPos xs g.nbr) / 2) / 3) := by
  have hW := cellWalls_proper h hi.lt hB
  have hF := fan_ok hM hg hi hgi
  have hvs : (M.fan i g).vs = ps.map coords := by
    unfold VMesh.fan
    simp only
    exact map_place hps
  have hd : euclid 3 (seedPos xs g.seed) (seedPos xs g.nbr) = euclid 3 (seedPos xs i) (seedPos xs (M.fan i g).y) := by
    unfold VMesh.fan
    by_cases e : g.seed = i
    · simp [e]
    · simp only [if_neg e]
      rw [hgi.resolve_left e, euclid_comm]
  have hy := cellWalls_mem.1 hF.wall
  have hxy : 0 < distSq3 (seedPos xs i) (seedPos xs (M.fan i g).y) := by
    rw [distSq3_sq]
    have := h.apart i _ hi.lt hy.2 hy.1.symm
    positivity
  have hlen : ps.length = g.verts.length := (hps.length_eq).symm
  have h3 := hF.three
  rw [hvs, List.length_map] at h3
  have hon : ∀ p ∈ ps, distSq3 p (seedPos xs i) = distSq3 p (seedPos xs (M.fan i g).y) := by
    intro p hp
    have := (hF.corner (coords p) (by rw [hvs]; exact List.mem_map_of_mem hp)).2
    rw [cellWalls_coords] at this
    unfold excess at this
    linarith
  rw [← cellWalls_pyramid, hF.pyramid_volume hW, hd]
  have hterm : ∀ t ∈ (M.fan i g).places, volume ((M.fan i g).tet (cellWalls xs i).p t) = ENNReal.ofReal (sidesArea (ps.getD 0 0) (ps.getD t 0) (ps.getD (t + 1) 0) * (euclid 3 (seedPos xs i) (seedPos xs (M.fan i g).y) / 2) / 3) := by
    intro t ht
    unfold Fan.places at ht
    rw [hvs, List.length_map, Finset.mem_Ico] at ht
    have get : ∀ k, k < ps.length → ((ps.map coords).getD k 0) = coords (ps.getD k 0) ∧ ps.getD k 0 ∈ ps := by
      intro k hk
      rw [List.getD_eq_getElem?_getD, List.getD_eq_getElem?_getD, List.getElem?_map, List.getElem?_eq_getElem hk]
      simp
    unfold Fan.tet
    rw [hvs, (get 0 (by omega)).1, (get t (by omega)).1, (get (t + 1) (by omega)).1, tetra_volume]
    have hp : (cellWalls xs i).p = coords (seedPos xs i) := rfl
    rw [hp, tetra_area hxy (hon _ (get 0 (by omega)).2) (hon _ (get t (by omega)).2) (hon _ (get (t + 1) (by omega)).2)]
  rw [Finset.sum_congr rfl hterm, ← ENNReal.ofReal_sum_of_nonneg (fun t _ => by
    unfold sidesArea
    have := euclid_nonneg 3 (seedPos xs i) (seedPos xs (M.fan i g).y)
    positivity)]
  congr 1
  unfold Fan.places
  rw [hvs, List.length_map]
  cases ps with
  | nil => simp at h3
  | cons o l =>
    simp only [polygonArea, List.getD_cons_zero, List.length_cons]
    rw [fanSides_sum, Finset.sum_mul, Finset.sum_div, Finset.sum_Ico_eq_sum_range]
    have : l.length + 1 - 1 - 1 = l.length - 1 := by omega
    rw [this]
    refine Finset.sum_congr rfl fun t _ => ?_
    rw [add_comm 1 t, List.getD_cons_succ, List.getD_cons_succ]

/-- The volume of a cell of the Voronoi mesh, from the areas of its faces. -/
theorem cell_volume (h : DistinctSeeds xs) (hM : CellMesh xs Q M) (hi : InnerSeed xs i) (hB : ∃ B : ℝ, ∀ z, InVoronoi xs i z → euclid 3 z (seedPos xs i) ≤ B) (K : Finset Nat)
    (hK : ∀ k, k ∈ K ↔ k < M.nf ∧ ∃ g, M.faces k = some g ∧ (g.seed = i ∨ g.nbr = i)) (area : Nat → ℝ) (hnn : ∀ k ∈ K, 0 ≤ area k)
    (harea : ∀ k g, k ∈ K → M.faces k = some g → ∃ ps, List.Forall₂ (fun v p => M.vertices v = some p) g.verts ps ∧ area k = polygonArea ps * (euclid 3 (seedPos xs g.seed) (seedPos xs g.nbr) / 2) / 3) :
    volume (voronoiCell xs i) = ENNReal.ofReal (∑ k ∈ K, area k) := by
  have hlt : i < xs.length := by
    obtain ⟨s, hs, -⟩ := hi
    exact (List.getElem?_eq_some_iff.1 hs).1
  have hW := cellWalls_proper h hlt hB
  set G : Nat → Fan := fun k => match M.faces k with | some g => M.fan i g | none => ⟨0, []⟩ with hG
  have hGk : ∀ {k : Nat} {g : MeshFace}, M.faces k = some g → G k = M.fan i g := fun {k g} e => by rw [hG]; simp only [e]
  have hface : ∀ k ∈ K, ∃ g, M.faces k = some g ∧ IsVoronoiFace xs M g ∧ (g.seed = i ∨ g.nbr = i) := by
    intro k hk
    obtain ⟨h1, g, h2, h3⟩ := (hK k).1 hk
    obtain ⟨g', h4, h5, -⟩ := hM.face k h1
    rw [h2] at h4
    obtain rfl := Option.some.inj h4
    exact ⟨g, h2, h5, h3⟩
  rw [← cellWalls_P, hW.volume_eq K G (fun k hk => ?_) (fun k hk k' hk' e => ?_) (fun y hy => ?_)]
  · rw [ENNReal.ofReal_sum_of_nonneg hnn]
    refine Finset.sum_congr rfl fun k hk => ?_
    obtain ⟨g, e, hg, hgi⟩ := hface k hk
    obtain ⟨ps, hps, ha⟩ := harea k g hk e
    rw [hGk e, cellWalls_pyramid, face_volume h hM hg hi hgi hB hps, ha]
  · obtain ⟨g, e, hg, hgi⟩ := hface k hk
    rw [hGk e]
    exact fan_ok hM hg hi hgi
  · obtain ⟨g, e1, hg, hgi⟩ := hface k hk
    obtain ⟨g', e1', hg', hgi'⟩ := hface k' hk'
    rw [hGk e1, hGk e1'] at e
    unfold VMesh.fan at e
    simp only at e
    refine hM.once k k' g g' ((hK k).1 hk).1 ((hK k').1 hk').1 e1 e1' ?_
    by_cases s1 : g.seed = i
    · by_cases s2 : g'.seed = i
      · rw [if_pos s1, if_pos s2] at e
        exact Or.inl ⟨s1.trans s2.symm, e⟩
      · rw [if_pos s1, if_neg s2] at e
        exact Or.inr ⟨s1.trans (hgi'.resolve_left s2).symm, e⟩
    · by_cases s2 : g'.seed = i
      · rw [if_neg s1, if_pos s2] at e
        exact Or.inr ⟨e, (hgi.resolve_left s1).trans s2.symm⟩
      · rw [if_neg s1, if_neg s2] at e
        exact Or.inl ⟨e, (hgi.resolve_left s1).trans (hgi'.resolve_left s2).symm⟩
  · obtain ⟨hyi, hyl⟩ := cellWalls_mem.1 hy
    by_cases hQ : Q i y
    swap
    · exact Or.inr (by rw [cellWalls_pyramid]; exact hM.rest i y hi hyl hyi hQ)
    left
    obtain ⟨k, g, h1, h2, h3⟩ := hM.faces i y hi hyl hyi hQ
    refine ⟨k, (hK k).2 ⟨h1, g, h2, h3.imp And.left And.right⟩, ?_⟩
    rw [hGk h2]
    unfold VMesh.fan
    rcases h3 with ⟨e1, e2⟩ | ⟨e1, e2⟩
    · simp only [e1, if_true, e2]
    · have : g.seed ≠ i := by rw [e1]; exact hyi
      rw [if_neg this, e1]

/-! ## C103 -/

/-- The seeds of the file are those of the mesh, with the same ghosts. -/
def SameSeeds (xs ys : List SeedRec) : Prop := ys.length = xs.length ∧ ∀ (i : Nat) (s t : SeedRec), xs[i]? = some s → ys[i]? = some t → t.x = s.x ∧ (t.region = 0 ↔ s.region = 0)

theorem SameSeeds.pos {ys : List SeedRec} (h : SameSeeds xs ys) (j : Nat) : seedPos ys j = seedPos xs j := by
  unfold seedPos
  by_cases hj : j < xs.length
  · have e1 : xs[j]? = some xs[j] := List.getElem?_eq_getElem hj
    have e2 : ys[j]? = some (ys[j]'(by rw [h.1]; exact hj)) := List.getElem?_eq_getElem _
    rw [e1, e2]
    exact (h.2 j _ _ e1 e2).1
  · have e1 : xs[j]? = none := List.getElem?_eq_none (by omega)
    have e2 : ys[j]? = none := List.getElem?_eq_none (by have := h.1; omega)
    rw [e1, e2]

theorem SameSeeds.inner {ys : List SeedRec} (h : SameSeeds xs ys) {j : Nat} (hj : InnerSeed xs j) : ∃ t, ys[j]? = some t ∧ t.region ≠ 0 := by
  obtain ⟨s, hs, hr⟩ := hj
  have hlt : j < ys.length := by rw [h.1]; exact (List.getElem?_eq_some_iff.1 hs).1
  exact ⟨ys[j], List.getElem?_eq_getElem hlt, fun h0 => hr ((h.2 j s _ hs (List.getElem?_eq_getElem hlt)).2.1 h0)⟩

theorem SameSeeds.inner' {ys : List SeedRec} (h : SameSeeds xs ys) {j : Nat} {t : SeedRec} (ht : ys[j]? = some t) (hr : t.region ≠ 0) : InnerSeed xs j := by
  have hlt : j < xs.length := by rw [← h.1]; exact (List.getElem?_eq_some_iff.1 ht).1
  exact ⟨xs[j], List.getElem?_eq_getElem hlt, fun h0 => hr ((h.2 j _ t (List.getElem?_eq_getElem hlt) ht).2.2 h0)⟩

/-- The line of the common face of the cells of `i` and `y`: the numbers of the two cells, that of `i` twice if `y` is a ghost, the point midway between the seeds, and the unit vector from `i` to `y`. -/
def ConnLine (xs ys : List SeedRec) (i y : Nat) (c : VcgConn) : Prop :=
  c.a = placeInside ys i + 1 ∧ c.b = (if regionAt ys y ≠ 0 then placeInside ys y + 1 else placeInside ys i + 1) ∧ (∀ d, d < 3 → c.mid d = (seedPos xs i d + seedPos xs y d) / 2) ∧
    ∃ n, c.normal = some n ∧ n 0 ^ 2 + n 1 ^ 2 + n 2 ^ 2 = 1 ∧ ∀ d, d < 3 → n d * euclid 3 (seedPos xs i) (seedPos xs y) = seedPos xs y d - seedPos xs i d

/-- The file gives the Voronoi cells of the seeds with a region: their volumes, the areas of their faces, and a line for the pairs of cells selected by `Q`. -/
structure VcgCells (Q : Nat → Nat → Prop) (xs ys : List SeedRec) (file : VcgFile) : Prop where
  /-- a line for every cell, in order -/
  cells : file.cells.length = ys.countP SeedRec.inside
  /-- the number, the place, the region and the volume of a cell -/
  cell : ∀ i t, ys[i]? = some t → t.region ≠ 0 → ∃ c, file.cells[placeInside ys i]? = some c ∧ c.id = placeInside ys i + 1 ∧ c.x = t.x ∧ c.region = t.region ∧ 0 ≤ c.volume ∧ volume (voronoiCell xs i) = ENNReal.ofReal c.volume
  /-- the sum of the volumes is the volume of the domain, the cells of all seeds with a region together -/
  total : volume (⋃ i ∈ {i | InnerSeed xs i}, voronoiCell xs i) = ENNReal.ofReal (file.cells.map VcgCell.volume).sum
  /-- every line of the connections is that of a selected pair, a cell and another one or the outside; the pyramid over the face has the volume of its area times its height divided by three -/
  conn : ∀ c ∈ file.conns, ∃ i y, InnerSeed xs i ∧ y < xs.length ∧ y ≠ i ∧ Q i y ∧ ConnLine xs ys i y c ∧ 0 ≤ c.area ∧
    volume (facePyramid xs i y) = ENNReal.ofReal (c.area * (euclid 3 (seedPos xs i) (seedPos xs y) / 2) / 3)
  /-- every selected pair has exactly one line -/
  conns : ∀ i y, InnerSeed xs i → y < xs.length → y ≠ i → Q i y → ∃! k : Nat, ∃ c : VcgConn, file.conns[k]? = some c ∧ (ConnLine xs ys i y c ∨ (InnerSeed xs y ∧ ConnLine xs ys y i c))

/-- A line for every two cells with a common point. -/
def VcgVoronoi (xs ys : List SeedRec) (file : VcgFile) : Prop := VcgCells (fun i y => ∃ z, CommonFace xs i y z) xs ys file

theorem placeInside_inj {ys : List SeedRec} {i j : Nat} {s t : SeedRec} (hs : ys[i]? = some s) (hr : s.region ≠ 0) (ht : ys[j]? = some t) (hr' : t.region ≠ 0) (h : placeInside ys i = placeInside ys j) : i = j := by
  rcases lt_trichotomy i j with hlt | rfl | hlt
  · have := placeInside_lt hs hr hlt
    omega
  · rfl
  · have := placeInside_lt ht hr' hlt
    omega

theorem placeInside_sum {ys : List SeedRec} (f : Nat → ℝ) (m : Nat) : m ≤ ys.length → ∑ i ∈ (Finset.range m).filter (fun i => regionAt ys i ≠ 0), f (placeInside ys i) = ∑ k ∈ Finset.range (placeInside ys m), f k := by
  induction m with
  | zero => intro _; simp [placeInside]
  | succ m ih =>
    intro hm
    have e : ys[m]? = some ys[m] := List.getElem?_eq_getElem (by omega)
    have er : regionAt ys m = ys[m].region := by unfold regionAt; rw [e]
    rw [Finset.range_add_one, Finset.filter_insert, placeInside_succ e, er]
    by_cases hr : ys[m].region = 0
    · rw [if_neg (by simpa using hr), if_pos hr, ih (by omega), Nat.add_zero]
    · rw [if_pos hr, if_neg hr, Finset.sum_insert (by simp), ih (by omega), Finset.sum_range_succ, add_comm]

theorem volumes_sum (l : List VcgCell) : (l.map VcgCell.volume).sum = ∑ k ∈ Finset.range l.length, match l[k]? with | some c => c.volume | none => 0 := by
  induction l with
  | nil => simp
  | cons c l ih =>
    rw [List.map_cons, List.sum_cons, ih, List.length_cons, Finset.sum_range_succ', add_comm]
    simp

/-- Two Voronoi cells have no common volume. -/
theorem cells_overlap (h : DistinctSeeds xs) {i j : Nat} (hi : i < xs.length) (hj : j < xs.length) (hij : i ≠ j) : volume (voronoiCell xs i ∩ voronoiCell xs j) = 0 := by
  refine measure_mono_null (t := {z | (cellWalls xs i).g j z = 0}) (fun z hz => ?_) (affine_null ((cellWalls xs i).N j) ((cellWalls xs i).c j) (fun z => rfl) (z0 := coords (seedPos xs i)) ?_)
  · rw [Set.mem_ofPred_eq, cellWalls_g, excess_zero]
    exact le_antisymm (hz.1 j hj) (hz.2 i hi)
  · rw [cellWalls_coords]
    unfold excess
    have h0 : distSq3 (seedPos xs i) (seedPos xs i) = 0 := by unfold distSq3; ring
    have h1 := h.apart i j hi hj hij
    rw [h0, distSq3_sq]
    have : 0 < euclid 3 (seedPos xs i) (seedPos xs j) ^ 2 := by positivity
    linarith

theorem cell_measurable (i : Nat) : NullMeasurableSet (voronoiCell xs i) volume := by
  have : voronoiCell xs i = ⋂ y ∈ (cellWalls xs i).S, {z | (cellWalls xs i).g y z ≤ 0} := by
    rw [← cellWalls_P]
    ext z
    simp [Walls.P]
  rw [this]
  refine (isClosed_biInter fun y _ => isClosed_le ?_ continuous_const).measurableSet.nullMeasurableSet
  unfold Walls.g
  fun_prop

/-- From a mesh of seeds with bounded cells the file of its cells is written. -/
theorem vcg_of_mesh {ys : List SeedRec} (hxy : SameSeeds xs ys) (h : DistinctSeeds xs) (hB : ∀ i, InnerSeed xs i → ∃ B : ℝ, ∀ z, InVoronoi xs i z → euclid 3 z (seedPos xs i) ≤ B) (hin : ∃ i, InnerSeed xs i)
    (hM : CellMesh xs Q M) : ∃ cf k m file, cellFaces ys.length (regionAt ys) M.pairs = some (cf, k, m) ∧ saveVcg ys M (listOf cf k) = some file ∧ VcgCells Q xs ys file := by
  have hpair : ∀ (j : Nat), j < M.nf → ∃ g, M.faces j = some g ∧ IsVoronoiFace xs M g ∧ M.pairs[j]? = some (g.seed, g.nbr) := by
    intro j hj
    obtain ⟨g, e, hg, -⟩ := hM.face j hj
    refine ⟨g, e, hg, ?_⟩
    unfold VMesh.pairs
    rw [List.getElem?_map, List.getElem?_range hj]
    simp [e]
  have hpl : M.pairs.length = M.nf := by simp [VMesh.pairs]
  have hinlt : ∀ {j : Nat}, InnerSeed xs j → j < xs.length := fun {j} hj => by
    obtain ⟨s, hs, -⟩ := hj
    exact (List.getElem?_eq_some_iff.1 hs).1
  have hmem : ∀ p ∈ M.pairs, p.1 < ys.length ∧ p.2 < ys.length ∧ p.1 ≠ p.2 := by
    intro p hp
    obtain ⟨j, hj⟩ := List.mem_iff_getElem?.1 hp
    have hjl : j < M.nf := by rw [← hpl]; exact (List.getElem?_eq_some_iff.1 hj).1
    obtain ⟨g, -, hg, e⟩ := hpair j hjl
    rw [e] at hj
    obtain rfl := Option.some.inj hj
    rw [hxy.1]
    exact ⟨hinlt hg.seed, hg.nbr, hg.ne.symm⟩
  obtain ⟨cf, k, m, ecf, hcf, -, -⟩ := C56_cell_faces_transpose ys.length (regionAt ys) M.pairs (fun p hp => ⟨(hmem p hp).1, (hmem p hp).2.1⟩) (fun p hp => (hmem p hp).2.2)
  have hlist : ∀ i t, ys[i]? = some t → t.region ≠ 0 → listOf cf k i = (List.range M.nf).filter fun j => (M.pairs[j]?).any fun p => p.1 == i || p.2 == i := by
    intro i t ht hr
    obtain ⟨l, el, -, h1⟩ := hcf i (List.getElem?_eq_some_iff.1 ht).1 (by unfold regionAt; rw [ht]; exact hr)
    unfold listOf
    rw [el, ← hpl]
    exact h1
  have hok : VcgOK ys M (listOf cf k) := by
    refine ⟨fun j hj => ?_, fun i s hs hr j hj => ?_⟩
    · obtain ⟨g, e, hg, -⟩ := hpair j hj
      refine ⟨g, e, hxy.inner hg.seed, by rw [hxy.1]; exact hg.nbr, hg.ne, fun v hv => ?_⟩
      obtain ⟨u, hu, -⟩ := hM.vertex v (hg.verts v hv)
      exact ⟨hg.verts v hv, u, hu⟩
    · rw [hlist i s hs hr] at hj
      exact List.mem_range.1 (List.mem_filter.1 hj).1
  obtain ⟨i0, hi0⟩ := hin
  obtain ⟨t0, ht0, hr0⟩ := hxy.inner hi0
  obtain ⟨file, e1, e2, e3, e4, e5, e6, e7, e8⟩ := C55_vcg_file ys M (listOf cf k) hok ⟨t0, List.mem_of_getElem? ht0, hr0⟩
  have hseed : ∀ {j : Nat} {t : SeedRec}, ys[j]? = some t → t.x = seedPos xs j := fun {j t} ht => by
    rw [← hxy.pos j]
    unfold seedPos
    rw [ht]
  -- the line of a face
  have line : ∀ {j : Nat} {g : MeshFace} {c : VcgConn}, M.faces j = some g → file.conns[j]? = some c → ConnLine xs ys g.seed g.nbr c := fun {j g c} e ec => by
    have hjl : j < M.nf := by rw [← e7, ← e6]; exact (List.getElem?_eq_some_iff.1 ec).1
    obtain ⟨g', e', hg', -⟩ := hpair j hjl
    rw [e] at e'
    obtain rfl := Option.some.inj e'
    have hc := e8 j g c e ec
    have hnl : g.nbr < ys.length := by rw [hxy.1]; exact hg'.nbr
    have ht : ys[g.nbr]? = some ys[g.nbr] := List.getElem?_eq_getElem hnl
    obtain ⟨s, l, hs, ha, -⟩ := hc.first
    have hn := hc.normal s _ hs ht
    rw [hseed hs, hseed ht] at hn
    refine ⟨ha, ?_, fun d _ => ?_, ?_⟩
    · unfold regionAt
      rw [ht]
      simp only
      split_ifs with hr
      · exact (hc.second _ ht hr).1
      · rw [hc.ghost _ ht (not_not.1 hr), ha]
    · have := (hc.mid s _ hs ht).2 d
      rw [← hseed hs, ← hseed ht]
      linarith
    · cases ecn : c.normal with
      | none => exact absurd (hn.1.1 ecn) (h.apart _ _ (hinlt hg'.seed) hg'.nbr hg'.ne.symm).ne'
      | some n => exact ⟨n, rfl, hn.2 n ecn⟩
  have hvol : ∀ i t, ys[i]? = some t → t.region ≠ 0 → ∃ c, file.cells[placeInside ys i]? = some c ∧ c.id = placeInside ys i + 1 ∧ c.x = t.x ∧ c.region = t.region ∧ 0 ≤ c.volume ∧ volume (voronoiCell xs i) = ENNReal.ofReal c.volume := by
    intro i t ht hr
    obtain ⟨c, hc, hx, hreg, hnn, v, hv, hvk⟩ := e5 i t ht hr
    refine ⟨c, hc, e4 _ c hc, hx, hreg, hnn, ?_⟩
    have hnd : (listOf cf k i).Nodup := by
      rw [hlist i t ht hr]
      exact List.Nodup.filter _ List.nodup_range
    have hsum : c.volume = ∑ j ∈ (listOf cf k i).toFinset, v j := by
      rw [hv, ← List.sum_toFinset v hnd]
    have hterm : ∀ j ∈ listOf cf k i, ∃ g ps, M.faces j = some g ∧ List.Forall₂ (fun v p => M.vertices v = some p) g.verts ps ∧ v j = polygonArea ps * (euclid 3 (seedPos xs g.seed) (seedPos xs g.nbr) / 2) / 3 ∧ 0 ≤ v j := by
      intro j hj
      obtain ⟨g, n, p, q, h1, h2, h3, h4, h5⟩ := hvk j hj
      obtain ⟨ha, ps, hps, hpa⟩ := (e8 j g n h1 h2).area
      refine ⟨g, ps, h1, hps, by rw [h5, hpa, hseed h3, hseed h4], ?_⟩
      rw [h5]
      have := euclid_nonneg 3 p.x q.x
      positivity
    rw [hsum]
    refine cell_volume h hM (hxy.inner' ht hr) (hB i (hxy.inner' ht hr)) _ (fun j => ?_) v (fun j hj => ?_) fun j g hj hg => ?_
    · rw [List.mem_toFinset, hlist i t ht hr, List.mem_filter, List.mem_range]
      refine and_congr_right fun hj => ?_
      obtain ⟨g, e, -, ep⟩ := hpair j hj
      rw [ep, e]
      simp
    · obtain ⟨g, ps, -, -, -, h0⟩ := hterm j (List.mem_toFinset.1 hj)
      exact h0
    · obtain ⟨g', ps, h1, h2, h3, -⟩ := hterm j (List.mem_toFinset.1 hj)
      rw [hg] at h1
      obtain rfl := Option.some.inj h1
      exact ⟨ps, h2, h3⟩
  refine ⟨cf, k, m, file, ecf, e1, ⟨by rw [e2, e3], hvol, ?_, fun c hc => ?_, fun i y hi hyl hyi hz => ?_⟩⟩
  · set I := (Finset.range ys.length).filter fun i => regionAt ys i ≠ 0 with hI
    have hIin : ∀ i, i ∈ I ↔ InnerSeed xs i := by
      intro i
      rw [hI, Finset.mem_filter, Finset.mem_range]
      constructor
      · rintro ⟨h1, h2⟩
        have e : ys[i]? = some ys[i] := List.getElem?_eq_getElem h1
        refine hxy.inner' e ?_
        unfold regionAt at h2
        rw [e] at h2
        exact h2
      · intro hi
        obtain ⟨t, ht, hr⟩ := hxy.inner hi
        refine ⟨(List.getElem?_eq_some_iff.1 ht).1, ?_⟩
        unfold regionAt
        rw [ht]
        exact hr
    have hset : (⋃ i ∈ {i | InnerSeed xs i}, voronoiCell xs i) = ⋃ i ∈ I, voronoiCell xs i := by
      ext z
      simp [hIin]
    set f : Nat → ℝ := fun k => match file.cells[k]? with | some c => c.volume | none => 0 with hf
    have hfi : ∀ i ∈ I, volume (voronoiCell xs i) = ENNReal.ofReal (f (placeInside ys i)) ∧ 0 ≤ f (placeInside ys i) := by
      intro i hi
      obtain ⟨t, ht, hr⟩ := hxy.inner ((hIin i).1 hi)
      obtain ⟨c, hc, -, -, -, h0, hv⟩ := hvol i t ht hr
      rw [hf]
      simp only [hc]
      exact ⟨hv, h0⟩
    have hlist : (file.cells.map VcgCell.volume).sum = ∑ k ∈ Finset.range file.cells.length, f k := volumes_sum file.cells
    rw [hset, measure_biUnion_finset₀ (fun i hi j hj hij => cells_overlap h (hinlt ((hIin i).1 hi)) (hinlt ((hIin j).1 hj)) hij) (fun i _ => cell_measurable i), Finset.sum_congr rfl fun i hi => (hfi i hi).1,
      ← ENNReal.ofReal_sum_of_nonneg fun i hi => (hfi i hi).2, placeInside_sum f ys.length (le_refl _), hlist, e2, e3]
    unfold placeInside
    rw [List.take_length]
  · obtain ⟨j, hj⟩ := List.mem_iff_getElem?.1 hc
    have hjl : j < M.nf := by rw [← e7, ← e6]; exact (List.getElem?_eq_some_iff.1 hj).1
    obtain ⟨g, e, hg, -⟩ := hpair j hjl
    have hc := e8 j g c e hj
    refine ⟨g.seed, g.nbr, hg.seed, hg.nbr, hg.ne, ?_, line e hj, hc.area.1, ?_⟩
    · obtain ⟨g', e', -, hQ⟩ := hM.face j hjl
      rw [e] at e'
      obtain rfl := Option.some.inj e'
      exact hQ
    · obtain ⟨-, ps, hps, hpa⟩ := hc.area
      have := face_volume h hM hg hg.seed (Or.inl rfl) (hB _ hg.seed) hps
      rw [hpa, ← this]
      unfold VMesh.fan
      simp
  · obtain ⟨j, g, hj, hg, hside⟩ := hM.faces i y hi hyl hyi hz
    have hcj : file.conns[j]? = some (file.conns[j]'(by rw [e6, e7]; exact hj)) := List.getElem?_eq_getElem _
    obtain ⟨g0, eg0, hg0, -⟩ := hpair j hj
    rw [hg] at eg0
    obtain rfl := Option.some.inj eg0
    refine ⟨j, ⟨_, hcj, ?_⟩, ?_⟩
    · rcases hside with ⟨s1, s2⟩ | ⟨s1, s2⟩
      · left
        rw [← s1, ← s2]
        exact line hg hcj
      · right
        rw [← s1, ← s2]
        exact ⟨hg0.seed, line hg hcj⟩
    · rintro j' ⟨c', hc', hab⟩
      have hjl : j' < M.nf := by rw [← e7, ← e6]; exact (List.getElem?_eq_some_iff.1 hc').1
      obtain ⟨g', e', hg', -⟩ := hpair j' hjl
      have hl := line e' hc'
      -- the numbers and the middle give the seeds
      have seeds : ∀ {a b : Nat}, InnerSeed xs a → b < xs.length → ConnLine xs ys a b c' → g'.seed = a ∧ g'.nbr = b := fun {a b} ha hb hab => by
        obtain ⟨t1, h1, r1⟩ := hxy.inner hg'.seed
        obtain ⟨t2, h2, r2⟩ := hxy.inner ha
        have k1 : g'.seed = a := placeInside_inj h1 r1 h2 r2 (by have := hl.1; have := hab.1; omega)
        refine ⟨k1, ?_⟩
        by_contra hne
        have := h.apart g'.nbr b hg'.nbr hb hne
        have hz : distSq3 (seedPos xs g'.nbr) (seedPos xs b) = 0 := by
          have q : ∀ d, d < 3 → seedPos xs g'.nbr d = seedPos xs b d := fun d hd => by
            have q1 := hl.2.2.1 d hd
            have q2 := hab.2.2.1 d hd
            rw [k1] at q1
            linarith
          unfold distSq3
          rw [q 0 (by norm_num), q 1 (by norm_num), q 2 (by norm_num)]
          ring
        rw [distSq3_sq] at hz
        exact this.ne' (pow_eq_zero_iff (two_ne_zero) |>.1 hz)
      refine hM.once j' j g' g hjl hj e' hg ?_
      rcases hab with hab | ⟨hyin, hab⟩
      · obtain ⟨k1, k2⟩ := seeds hi hyl hab
        rw [k1, k2]
        rcases hside with ⟨s1, s2⟩ | ⟨s1, s2⟩
        · exact Or.inl ⟨s1.symm, s2.symm⟩
        · exact Or.inr ⟨s2.symm, s1.symm⟩
      · obtain ⟨k1, k2⟩ := seeds hyin (hinlt hi) hab
        rw [k1, k2]
        rcases hside with ⟨s1, s2⟩ | ⟨s1, s2⟩
        · exact Or.inr ⟨s2.symm, s1.symm⟩
        · exact Or.inl ⟨s1.symm, s2.symm⟩

/-- **C103**: for seeds in general position and not nearer to each other than 2e-5, of which the inner ones have bounded Voronoi cells, the mesh, the lists of faces of the cells and the file for PFLOTRAN come about without undefined
behaviour, and the file gives the volume of every Voronoi cell of a seed with a region and the area of every face, one line for every two cells with a common face. -/
theorem C103_file_volumes (xs ys : List SeedRec) (hxy : SameSeeds xs ys) (hsize : ∀ s ∈ xs, 0 ≤ s.size) (hsep : ∀ i j, i < xs.length → j < xs.length → i ≠ j → 2e-5 ≤ euclid 3 (seedPos xs i) (seedPos xs j))
    (hvc : VertexClear (seedPos xs) xs.length) (hin : ∃ i, InnerSeed xs i)
    (hcell : ∀ i s, xs[i]? = some s → s.region ≠ 0 → 1e-11 ≤ 2 * s.size ∧ ∃ M, (∀ m, m ≤ M → GeneralPos (seedPos xs) xs.length (seedPos xs i) (10 * (2 * s.size * 2 ^ (m + 1)))) ∧
      ∀ z, InVoronoi xs i z → 2 * euclid 3 z (seedPos xs i) < 2 * s.size * 2 ^ (M + 1)) :
    ∃ F, ∀ fuel' fuel, F ≤ fuel' → F ≤ fuel → ∃ mesh cf k m file, voroMesh xs fuel' fuel = some (some mesh) ∧ IsVoronoiMesh xs mesh ∧ cellFaces ys.length (regionAt ys) mesh.pairs = some (cf, k, m) ∧
      saveVcg ys mesh (listOf cf k) = some file ∧ VcgVoronoi xs ys file := by
  have hne : xs ≠ [] := by
    rintro rfl
    obtain ⟨i, s, hs, -⟩ := hin
    simp at hs
  obtain ⟨F, hF⟩ := C102_voronoi_mesh xs hne hsize hsep hvc hcell
  refine ⟨F, fun fuel' fuel h1 h2 => ?_⟩
  obtain ⟨mesh, e1, e2⟩ := hF fuel' fuel h1 h2
  have hd : DistinctSeeds xs := ⟨fun i j hi hj hij => lt_of_lt_of_le (by norm_num) (hsep i j hi hj hij)⟩
  have hB : ∀ i, InnerSeed xs i → ∃ B : ℝ, ∀ z, InVoronoi xs i z → euclid 3 z (seedPos xs i) ≤ B := fun i ⟨s, hs, hr⟩ => by
    obtain ⟨-, M, -, hb⟩ := hcell i s hs hr
    exact ⟨2 * s.size * 2 ^ (M + 1) / 2, fun z hz => by linarith [hb z hz]⟩
  obtain ⟨cf, k, m, file, q1, q2, q3⟩ := vcg_of_mesh hxy hd hB hin (e2.cellMesh hd hvc hB)
  exact ⟨mesh, cf, k, m, file, e1, e2, q1, q2, q3⟩

end VoroCrust
