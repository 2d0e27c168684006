import Verif.Props.Run
import Verif.Props.SheetRegions

/-!
# C110: the run from a sampled surface with sharp edges to the mesh files
-/

namespace VoroCrust

open Classical

variable {Z : SphereSet} {face : Nat → Fin 3 → V3} {up lo : SeedTree}

/-- `nb`, `j0` and `α` describe the sheets around every edge sphere that has seeds. -/
def EdgeFrames (Z : SphereSet) (up lo : SeedTree) (nb j0 : Nat → Nat) (α : Nat → Nat → ℝ) : Prop :=
  ∀ i, Z.S.num ≤ i → i < Z.S.num + Z.E.num → (∃ s u v, Spokes (fanEnvOf Z up lo) i s u v) → SheetFrame (fanEnvOf Z up lo) Z.S.num i (nb i) (j0 i) (α i)

/-- A chain leads from `s` to `t` whose steps stay on one side of neighbouring triangles around a surface sphere, or in one sector between two sheets around an edge sphere. -/
def JoinedSeeds (Z : SphereSet) (up lo : SeedTree) (nb : Nat → Nat) (α : Nat → Nat → ℝ) : Nat → Nat → Prop := Relation.ReflTransGen (JoinStep (fanEnvOf Z up lo) Z.S.num Z.E.num nb α)

/-- The seed nearest to a far point has region 0. -/
def OutsideZero (up lo : SeedTree) (reg : Nat → Nat) : Prop :=
  ∃ (x : Nat → ℝ) (e : Nat), FarPoint (up.tree.num + lo.tree.num) (mergedSeed up lo) x ∧ e < up.tree.num + lo.tree.num ∧ reg e = 0 ∧
    ∀ q, q < up.tree.num + lo.tree.num → euclid 3 x (mergedSeed up lo e) ≤ euclid 3 x (mergedSeed up lo q)

/-- What is needed of a sampled surface with sharp edges: spheres as the sampling leaves them, exact seeds (C104), triangles that are not thin, a closed surface with one fan around each surface sphere, and sheets at different angles
around each edge sphere (C85). -/
structure EdgedSurface (Z : SphereSet) (face : Nat → Fin 3 → V3) (up lo : SeedTree) (L : ℝ) : Prop where
  spheres : Z.OK L
  seeds : StoredSeeds Z face up lo
  grazing : NoGrazing Z
  thin : NotThin Z up lo
  closed : Watertight Z.S.num (lo.attr.map fun a => [a.s1, a.s2, a.s3])
  fans : ∀ i, i < Z.S.num → OneFan (fanEnvOf Z up lo) i
  some : ∃ a ∈ mergeSeedAttrs up lo, a.s1 < Z.S.num
  edges : ∀ i, Z.S.num ≤ i → i < Z.S.num + Z.E.num → (∃ s u v, Spokes (fanEnvOf Z up lo) i s u v) → EdgeOk (fanEnvOf Z up lo) Z.S.num i
  sides : ∀ nb j0 α, EdgeFrames Z up lo nb j0 α → ∃ s t, s < up.tree.num + lo.tree.num ∧ t < up.tree.num + lo.tree.num ∧ ¬ JoinedSeeds Z up lo nb α s t

theorem EdgedSurface.pos {L : ℝ} (h : EdgedSurface Z face up lo L) : 0 < up.tree.num + lo.tree.num := by
  obtain ⟨a, ha, -⟩ := h.some
  rw [← h.seeds.len]
  exact List.length_pos_of_mem ha

theorem colorSurface_edges {L : ℝ} (h : EdgedSurface Z face up lo L) (rb : Nat → Nat → Bool) :
    ∃ reg nr nb j0 α, colorSurface rb Z up lo = some (reg, nr) ∧ EdgeFrames Z up lo nb j0 α ∧
      (∀ s t, s < up.tree.num + lo.tree.num → t < up.tree.num + lo.tree.num → (reg s = reg t ↔ JoinedSeeds Z up lo nb α s t)) ∧ OutsideZero up lo reg := by
  have hP := h.seeds.paired h.grazing h.thin
  have hne := h.pos
  have hlen : (fanEnvOf Z up lo).attr.length = up.tree.num + lo.tree.num := h.seeds.len
  obtain ⟨a0, ha0, has⟩ := h.some
  obtain ⟨S, eS, nS, -, hS⟩ := collectPoints_spec rb (Z.S.num + Z.E.num + Z.C.num) Z.at
  obtain ⟨T, eT, nT, pT, hT⟩ := collectPoints_spec rb (up.tree.num + lo.tree.num) (mergedSeed up lo)
  obtain ⟨cS, -⟩ := hS (by omega)
  obtain ⟨cT, rT⟩ := hT hne
  have hTn : 0 < T.spheres.num := by show 0 < T.num; omega
  have key : ∀ q, q < up.tree.num + lo.tree.num → T.spheres.pts q = mergedSeed up lo q := pT
  obtain ⟨e, b, eq, h6 | h6⟩ := C06_closest_is_exhaustive T.spheres T.links rT (fun _ => true) (farPoint T.spheres) false ⊤ le_top
  · obtain ⟨he, -, hb, -, hmin⟩ := h6
    have he' : e < up.tree.num + lo.tree.num := by rw [← nT]; exact he
    obtain ⟨nb, j0, α, G, c, g, reg, nr, e0, e1, e2, -, e3, e4, e5⟩ := C85_regions_partial (fanEnvOf Z up lo) Z.S.num Z.E.num (Z.S.num + Z.E.num + Z.C.num) S.cap T.cap 0 0 hP (by omega) (by omega) (by omega) (fun a ha => by
        obtain ⟨q, hq⟩ := List.mem_iff_getElem?.1 ha
        have hv := (h.seeds.exact h.grazing hq).seed.valid
        exact ⟨hv _ (.inl rfl), hv _ (.inr (.inl rfl)), hv _ (.inr (.inr rfl))⟩) h.some
      (C84_watertight_fans _ up lo Z.S.num hP rfl (fun s a ha => by
        have := (h.seeds.exact h.grazing (q := s) ha).side
        rw [h.seeds.upLen]; exact this) h.closed) h.fans h.edges e (hlen ▸ he')
    refine ⟨reg, nr, nb, j0, α, ?_, e0, fun s t hs ht => e5 s t (hlen ▸ hs) (hlen ▸ ht), farPoint T.spheres, e, ?_, he', e4, fun q hq => ?_⟩
    · unfold colorSurface
      simp only [eS, eT]
      rw [nS, show mergeSeedAttrs up lo = (fanEnvOf Z up lo).attr from rfl, e1]
      simp only []
      rw [e2]
      simp only []
      unfold colourSurfaceSeeds closestSphere
      rw [eq, hb]
      show (match (if e < T.spheres.num then some (e, euclid T.spheres.dim (farPoint T.spheres) (T.spheres.pts e)) else none) with
        | none => none
        | some (iclosest, _) => colourSeeds g T.spheres.num iclosest) = _
      rw [if_pos he]
      show colourSeeds g T.num e = _
      rw [nT, ← hlen]
      exact e3
    · intro d
      obtain ⟨i, j, hi, hj, ex, hq⟩ := farPoint_spec hTn d
      have hn : T.spheres.num = up.tree.num + lo.tree.num := nT
      rw [hn] at hi hj
      refine ⟨i, j, hi, hj, by rw [ex, key i hi, key j hj], fun q hq' => ?_⟩
      have := hq q (by rw [hn]; exact hq')
      rwa [key i hi, key j hj, key q hq'] at this
    · have := hmin q (by show q < T.num; omega) rfl
      rw [key q hq, key e he'] at this
      exact this
  · exact absurd (h6.2.2 0 hTn rfl) (by simp)

/-- The sharp edges as the mesher sees them: every edge sphere has a neighbour on each side and meets it, the draws are useful (C87), and there are no more corner spheres than surface spheres (C62). -/
structure EdgesReady (Z : SphereSet) (O : MeshSetup) (D : RunDraws) : Prop where
  corners : Z.C.num ≤ Z.S.num
  edges : EdgesOK (featuresOf Z O.size)
  draws : AllDrawsOK (featuresOf Z O.size) D.vs D.ys

/-- The seeds before the explicit mesh is made, of a surface with sharp edges. -/
structure EdgedSeedsOK (Z : SphereSet) (up lo : SeedTree) (nb : Nat → Nat) (α : Nat → Nat → ℝ) (xs : List SeedRec) : Prop where
  /-- the seeds of the surface come first, at their places -/
  first : up.tree.num + lo.tree.num ≤ xs.length ∧ ∀ (q : Nat) (b : SeedRec), q < up.tree.num + lo.tree.num → xs[q]? = some b → b.x = mergedSeed up lo q
  /-- two of them are in one region exactly if a chain leads from one to the other along one side of the surface and, at sharp edges, in one sector -/
  sides : ∀ (s t : Nat) (a b : SeedRec), s < up.tree.num + lo.tree.num → t < up.tree.num + lo.tree.num → xs[s]? = some a → xs[t]? = some b → (a.region = b.region ↔ JoinedSeeds Z up lo nb α s t)
  /-- region 0 is outside: it has a seed from which a straight way leads to a point beyond all of them without meeting the surface -/
  outside : ∃ (x : Nat → ℝ) (e : Nat) (b : SeedRec), FarPoint (up.tree.num + lo.tree.num) (mergedSeed up lo) x ∧ e < up.tree.num + lo.tree.num ∧ xs[e]? = some b ∧ b.region = 0 ∧
    ∀ t : ℝ, 0 ≤ t → t < 1 → ∀ z, (∀ d, d < 3 → z d = (1 - t) * b.x d + t * x d) → ∀ (q : Nat) (a : SeedAttr), (mergeSeedAttrs up lo)[q]? = some a → ¬ InTri3 (Z.at a.s1) (Z.at a.s2) (Z.at a.s3) z
  /-- the other seeds have a region of a seed of the surface that is not the outside, and are outside the surface spheres, up to `1e-10` -/
  later : ∀ (i : Nat) (b : SeedRec), up.tree.num + lo.tree.num ≤ i → xs[i]? = some b → b.region ≠ 0 ∧ (∃ (q : Nat) (a : SeedRec), q < up.tree.num + lo.tree.num ∧ xs[q]? = some a ∧ a.region = b.region) ∧
    ∀ s, s < Z.S.num → Z.at s 3 - 1e-10 ≤ euclid 3 b.x (Z.at s)
  /-- at most two seeds are added for each edge sphere, after those of the surface; the others are outside all spheres.  The cells of the two seeds of a triangle meet inside it, and no cell crosses it; for triangles of surface spheres, or for all
  if no seeds were added for the edge spheres -/
  conform : ∃ k, k ≤ 2 * Z.E.num ∧ (∀ (i : Nat) (b : SeedRec), up.tree.num + lo.tree.num + k ≤ i → xs[i]? = some b → ∀ s, s < Z.total → Z.at s 3 - 1e-10 ≤ euclid 3 b.x (Z.at s)) ∧
    ∀ (q : Nat) (a : SeedAttr), (mergeSeedAttrs up lo)[q]? = some a → ((∀ s, a.Has s → s < Z.S.num) ∨ k = 0) →
      ((a.s2 < Z.S.num ∨ a.s3 < Z.S.num ∨ SharedEdge up lo a.s2 a.s3 a.s1) → ∀ z, CommonFace xs q a.pair z → InTri3 (Z.at a.s1) (Z.at a.s2) (Z.at a.s3) z) ∧
      ∀ R, (∀ s, s < Z.total → Z.at s 3 ≤ R) → ∀ i, i < xs.length → ∀ u w, DeepInside xs (2 * 1e-10 * R) i u → DeepInside xs (2 * 1e-10 * R) i w → ∀ z, BetweenPoints u w z → ¬ InTri3 (Z.at a.s1) (Z.at a.s2) (Z.at a.s3) z

/-- The copies of the spheres in the mesher. -/
theorem sameSpheres (Z : SphereSet) (size : Option STree) : SameSpheres Z (featuresOf Z size) := by
  refine ⟨fun s hs => ⟨⟨Z.S.pts s, Z.S.pts s 3, 0⟩, recsOf_mem.2 ⟨s, hs, rfl⟩, ?_, ?_⟩, fun s h1 h2 => ?_⟩
  · unfold SphereSet.at; rw [if_pos hs]
  · unfold SphereSet.at; rw [if_pos hs]
  · unfold SphereSet.total at h2
    by_cases h3 : s < Z.S.num + Z.E.num
    · refine ⟨⟨Z.E.pts (s - Z.S.num), Z.E.pts (s - Z.S.num) 3, 0⟩, List.mem_append.2 (.inl (recsOf_mem.2 ⟨s - Z.S.num, by omega, rfl⟩)), ?_, ?_⟩ <;>
      · unfold SphereSet.at
        rw [if_neg (by omega), if_pos h3]
    · refine ⟨⟨Z.C.pts (s - Z.S.num - Z.E.num), Z.C.pts (s - Z.S.num - Z.E.num) 3, 0⟩, List.mem_append.2 (.inr (recsOf_mem.2 ⟨s - Z.S.num - Z.E.num, by omega, rfl⟩)), ?_, ?_⟩ <;>
      · unfold SphereSet.at
        rw [if_neg (by omega), if_neg h3]

theorem interior_edges {O : MeshSetup} {D : RunDraws} (hS : EdgedSurface Z face up lo O.L) (hO : O.OK Z up lo D) (hR : EdgesReady Z O D) {reg : Nat → Nat} {nb j0 : Nat → Nat} {α : Nat → Nat → ℝ} (hf : EdgeFrames Z up lo nb j0 α)
    (hs : ∀ s t, s < up.tree.num + lo.tree.num → t < up.tree.num + lo.tree.num → (reg s = reg t ↔ JoinedSeeds Z up lo nb α s t)) (ho : OutsideZero up lo reg) :
    ∃ N, ∀ lf, N ≤ lf → (O.imposed = none → interiorRun O.ρ (featuresOf Z O.size) O.L O.rmax lf O.threads O.imposed O.generate D (seedArrays up lo reg) ≠ none) ∧
      ∀ out, interiorRun O.ρ (featuresOf Z O.size) O.L O.rmax lf O.threads O.imposed O.generate D (seedArrays up lo reg) = some (some out) → EdgedSeedsOK Z up lo nb α out.seeds ∧ (∀ b ∈ out.seeds, 0 ≤ b.size) := by
  have hg := hS.grazing
  have hst := hS.seeds
  have hF : (featuresOf Z O.size).OK O.L := ⟨hS.spheres.nonneg, hS.spheres.lt, recsOf_good hS.spheres.s, recsOf_good hS.spheres.e, recsOf_good hS.spheres.c⟩
  have hsz : SizingOK (featuresOf Z O.size) := by
    intro q hq
    unfold featuresOf at hq
    cases e : O.size with
    | none => simp [e] at hq
    | some t =>
      simp only [e] at hq
      obtain ⟨i, hi, rfl⟩ := recsOf_mem.1 hq
      exact hO.sizes t e i hi
  have hc : (featuresOf Z O.size).corners.length ≤ (featuresOf Z O.size).surface.length := by
    unfold featuresOf
    simp only [recsOf_len]
    exact hR.corners
  have hz : (featuresOf Z O.size).sizing.length ≤ (featuresOf Z O.size).surface.length := by
    unfold featuresOf
    cases e : O.size with
    | none => exact Nat.zero_le _
    | some t =>
      simp only [recsOf_len]
      exact hO.few t e
  have hZF := sameSpheres Z O.size
  have h0 : ∀ a ∈ seedArrays up lo reg, 0 ≤ a.size := by
    intro a ha
    obtain ⟨q, hq⟩ := List.getElem?_of_mem ha
    obtain ⟨hq', rfl⟩ := seedArrays_pos reg hq
    exact hst.size_nonneg hg hq'
  obtain ⟨q0, hq0, hr0⟩ : ∃ q, q < up.tree.num + lo.tree.num ∧ reg q ≠ 0 := by
    obtain ⟨s, t, hs', ht, hn⟩ := hS.sides nb j0 α hf
    by_contra hcon
    push Not at hcon
    exact hn ((hs s t hs' ht).1 ((hcon s hs').trans (hcon t ht).symm))
  have hin : ∃ a ∈ seedArrays up lo reg, a.region ≠ 0 := ⟨_, List.mem_of_getElem? (seedArrays_get reg hq0), hr0⟩
  obtain ⟨N1, hN1⟩ := C98_interior_run_partial hO.mono hO.nat (rmax := O.rmax) hF hsz hO.rmax hc hz hR.edges O.threads O.imposed O.generate D hR.draws hO.inputs hO.us (seedArrays up lo reg) h0 hin (hO.imposed reg)
  refine ⟨N1, fun lf hf => ⟨(hN1 lf hf).1, fun out hout => ?_⟩⟩
  obtain ⟨g1, g2, ⟨k, m, hk, g3, -⟩, -⟩ := (hN1 lf hf).2 out hout
  have hfirst : ∀ q, q < up.tree.num + lo.tree.num → ∃ b, out.seeds[q]? = some b ∧ b.x = mergedSeed up lo q ∧ b.region = reg q := fun q hq => by
    obtain ⟨b, e, e1, e2, -⟩ := g1 q _ (seedArrays_get reg hq)
    exact ⟨b, e, e1, e2⟩
  have hlen : up.tree.num + lo.tree.num ≤ out.seeds.length := by
    by_contra hcon
    obtain ⟨b, e, -⟩ := hfirst out.seeds.length (by omega)
    simp at e
  have hsurf : ∀ (i : Nat) (b : SeedRec), up.tree.num + lo.tree.num ≤ i → out.seeds[i]? = some b → ∀ s, s < Z.S.num → Z.at s 3 - 1e-10 ≤ euclid 3 b.x (Z.at s) := fun i b hi e s hs' => by
    obtain ⟨-, h2, -⟩ := g3 i b (by rw [seedArrays_len]; exact hi) e
    obtain ⟨p, hp, e1, e2⟩ := hZF.surface s hs'
    rw [← e2, ← e1]
    exact h2 p hp
  have hall : ∀ (i : Nat) (b : SeedRec), up.tree.num + lo.tree.num + k ≤ i → out.seeds[i]? = some b → ∀ s, s < Z.total → Z.at s 3 - 1e-10 ≤ euclid 3 b.x (Z.at s) := fun i b hi e s hs' => by
    by_cases hsn : s < Z.S.num
    · exact hsurf i b (by omega) e s hsn
    · obtain ⟨-, -, -, h3⟩ := g3 i b (by rw [seedArrays_len]; omega) e
      obtain ⟨h4, h5⟩ := h3 (by rw [seedArrays_len]; exact hi)
      obtain ⟨p, hp, e1, e2⟩ := hZF.other s (not_lt.1 hsn) hs'
      rw [← e2, ← e1]
      rcases List.mem_append.1 hp with hp | hp
      · exact h4 p hp
      · exact h5 p hp
  refine ⟨⟨⟨hlen, fun q b hq e => ?_⟩, fun s t a b hs' ht ea eb => ?_, ?_, fun i b hi e => ?_, k, ?_, hall, fun q a ha hcase => ?_⟩, g2⟩
  · obtain ⟨b', e', h1, -⟩ := hfirst q hq
    rw [e] at e'
    rw [Option.some.inj e', h1]
  · obtain ⟨a', ea', -, h1⟩ := hfirst s hs'
    obtain ⟨b', eb', -, h2⟩ := hfirst t ht
    rw [ea] at ea'
    rw [eb] at eb'
    obtain rfl := Option.some.inj ea'
    obtain rfl := Option.some.inj eb'
    rw [h1, h2]
    exact hs s t hs' ht
  · obtain ⟨x, e, hx, he, hre, hn⟩ := ho
    obtain ⟨b, eb, h1, h2⟩ := hfirst e he
    refine ⟨x, e, b, hx, he, eb, by rw [h2, hre], fun t t0 t1 z hz q a ha => ?_⟩
    rw [h1] at hz
    exact sees_point hst hg he hn t0 t1 hz ha
  · obtain ⟨h1, -, ⟨a, ha, h3⟩, -⟩ := g3 i b (by rw [seedArrays_len]; exact hi) e
    refine ⟨h1, ?_, hsurf i b hi e⟩
    obtain ⟨q, hq⟩ := List.getElem?_of_mem ha
    obtain ⟨hq', rfl⟩ := seedArrays_pos reg hq
    obtain ⟨b', e', -, h4⟩ := hfirst q hq'
    exact ⟨q, b', hq', e', h4.trans h3⟩
  · refine hk.trans_eq ?_
    unfold featuresOf
    simp only [recsOf_len]
  · have hvalid := (hst.exact hg ha).seed.valid
    have har : SeedsAround Z up lo out.seeds 1e-10 a := by
      refine ⟨hlen, fun q hq d _ => ?_, fun q hq hql s hs' => ?_⟩
      · obtain ⟨b, e, h1, -⟩ := hfirst q hq
        unfold seedPos
        rw [e]
        show b.x d = _
        rw [h1]
      · have e : out.seeds[q]? = some out.seeds[q] := List.getElem?_eq_getElem hql
        unfold seedPos
        rw [e]
        rcases hcase with hc' | rfl
        · exact hsurf q _ hq e s (hc' s hs')
        · exact hall q _ (by omega) e s (hvalid s hs')
    exact ⟨fun hedge z hz => face_in_triangle hst hg hS.closed ha hedge har hz, fun R hR' i hi u w hu hw z hz => C108_no_crossing hst hg out.seeds (by norm_num) hR' ha har hi hu hw hz⟩

/-- **C110**: the run from a sampled surface with sharp edges to the mesh files.  The colouring of the surface seeds has no undefined behaviour, nor has the generation of the interior seeds if no points are imposed.  If that ends, the seeds
are as `EdgedSeedsOK` says; if they meet the conditions of C105 and the numbers fit into `int`, the whole run ends without undefined behaviour, and the files hold the Voronoi diagram of the seeds. -/
theorem C110_mesh_run {O : MeshSetup} {D : RunDraws} (hS : EdgedSurface Z face up lo O.L) (hO : O.OK Z up lo D) (hR : EdgesReady Z O D) :
    ∃ reg nr nb j0 α N, colorSurface O.rb Z up lo = some (reg, nr) ∧ EdgeFrames Z up lo nb j0 α ∧
      (∀ s t, s < up.tree.num + lo.tree.num → t < up.tree.num + lo.tree.num → (reg s = reg t ↔ JoinedSeeds Z up lo nb α s t)) ∧ OutsideZero up lo reg ∧ ∀ lf, N ≤ lf →
      (O.imposed = none → interiorRun O.ρ (featuresOf Z O.size) O.L O.rmax lf O.threads O.imposed O.generate D (seedArrays up lo reg) ≠ none) ∧
      (∀ f' f out R, meshModel O Z up lo D lf f' f = some (some (out, R)) → EdgedSeedsOK Z up lo nb α out.seeds) ∧
      ∀ out, interiorRun O.ρ (featuresOf Z O.size) O.L O.rmax lf O.threads O.imposed O.generate D (seedArrays up lo reg) = some (some out) → EdgedSeedsOK Z up lo nb α out.seeds ∧
        (MeshableSeeds out.seeds → ∃ F, ∀ f' f, F ≤ f' → F ≤ f → ∃ mesh, voroMesh out.seeds f' f = some (some mesh) ∧ IsDiagramMesh out.seeds mesh ∧
          ((O.exo = true → ExoFits out.seeds mesh) → ∃ R, meshModel O Z up lo D lf f' f = some (some (out, R)) ∧ FilesOK O (up.tree.num + lo.tree.num) out.seeds R)) := by
  obtain ⟨reg, nr, nb, j0, α, ec, hfr, hr, hz⟩ := colorSurface_edges hS O.rb
  obtain ⟨N, hN⟩ := interior_edges hS hO hR hfr hr hz
  refine ⟨reg, nr, nb, j0, α, N, ec, hfr, hr, hz, fun lf hf => ⟨(hN lf hf).1, fun f' f out R ho => ?_, fun out ho => ?_⟩⟩
  · unfold meshModel at ho
    rw [ec] at ho
    simp only [] at ho
    split at ho
    · simp at ho
    · simp at ho
    · rename_i out' eo
      split at ho
      · split at ho
        · simp at ho
        · simp at ho
        · obtain ⟨rfl, -⟩ := Prod.mk.inj (Option.some.inj (Option.some.inj ho))
          exact ((hN lf hf).2 _ eo).1
      · obtain ⟨rfl, -⟩ := Prod.mk.inj (Option.some.inj (Option.some.inj ho))
        exact ((hN lf hf).2 _ eo).1
  · obtain ⟨h1, h2⟩ := (hN lf hf).2 out ho
    refine ⟨h1, fun hm => ?_⟩
    have hin : ∃ i, InnerSeed out.seeds i := by
      obtain ⟨s, t, hs, ht, hn⟩ := hS.sides nb j0 α hfr
      have es : out.seeds[s]? = some (out.seeds[s]'(lt_of_lt_of_le hs h1.first.1)) := List.getElem?_eq_getElem _
      have et : out.seeds[t]? = some (out.seeds[t]'(lt_of_lt_of_le ht h1.first.1)) := List.getElem?_eq_getElem _
      by_contra hcon
      have z1 : (out.seeds[s]'(lt_of_lt_of_le hs h1.first.1)).region = 0 := by_contra fun h => hcon ⟨s, _, es, h⟩
      have z2 : (out.seeds[t]'(lt_of_lt_of_le ht h1.first.1)).region = 0 := by_contra fun h => hcon ⟨t, _, et, h⟩
      exact hn ((h1.sides s t _ _ hs ht es et).1 (z1.trans z2.symm))
    obtain ⟨F, hF⟩ := C107_explicit_mesh O.flt O.vcg O.exo (up.tree.num + lo.tree.num) out.seeds (fun i s hi hs => (h1.later i s hi hs).1) h2 hm.apart hm.gap hm.few hin hm.cell
    refine ⟨F, fun f' f hf1 hf2 => ?_⟩
    obtain ⟨mesh, e1, e2, e3⟩ := hF f' f hf1 hf2
    refine ⟨mesh, e1, e2, fun hfit => ?_⟩
    unfold meshModel FilesOK
    rw [ec]
    simp only [ho, seedArrays_len]
    by_cases hw : (O.vcg || O.exo) = true
    · obtain ⟨r, f1, f2, f3⟩ := e3 hfit
      rw [if_pos hw, f1]
      refine ⟨some r, rfl, ?_⟩
      rw [if_pos hw]
      exact ⟨r, rfl, by rw [f2]; exact e2, f3⟩
    · rw [if_neg hw]
      refine ⟨none, rfl, ?_⟩
      rw [if_neg hw]

/-- What is assumed of the spheres and seeds a sampling leaves when there are sharp edges: radii as the searches need them (C38, C81, C82), the power vertex always found (C39), and the last six of `EdgedSurface`. -/
structure EdgedSample (I : VcInput) (R : Sampled) : Prop where
  spheres : R.spheres.OK I.L
  works : ∀ k, ((I.surfSetup R.found R.corner R.edge).env R.spheres { R.surf with seedings := k }).Works R.spheres
  grazing : NoGrazing R.spheres
  thin : NotThin R.spheres R.up R.lo
  fans : ∀ i, i < R.surf.tree.num → OneFan (fanEnvOf R.spheres R.up R.lo) i
  seeded : ∃ a ∈ mergeSeedAttrs R.up R.lo, a.s1 < R.surf.tree.num
  edges : ∀ i, R.surf.tree.num ≤ i → i < R.surf.tree.num + R.edge.tree.num → (∃ s u v, Spokes (fanEnvOf R.spheres R.up R.lo) i s u v) → EdgeOk (fanEnvOf R.spheres R.up R.lo) R.surf.tree.num i
  sides : ∀ nb j0 α, EdgeFrames R.spheres R.up R.lo nb j0 α → ∃ s t, s < R.up.tree.num + R.lo.tree.num ∧ t < R.up.tree.num + R.lo.tree.num ∧ ¬ JoinedSeeds R.spheres R.up R.lo nb α s t

theorem EdgedSample.surface {I : VcInput} (hI : I.Ok) {mps fuel : Nat} {R : Sampled} (hr : sampleModel I mps fuel = some (some R)) (h : EdgedSample I R) :
    EdgedSurface R.spheres (recordedFace (I.surfSetup R.found R.corner R.edge) R.surf) R.up R.lo I.L := by
  obtain ⟨-, hD, hC, hE, hS⟩ := C93_sampled I hI mps fuel R hr
  have h82 := C82_surface_spheres _ (surfSetup_ok hI hD (by norm_num) (by norm_num) hC hE) mps fuel R.surf R.up R.lo (sampleModel_surface hr)
  obtain ⟨⟨m0, m0'⟩, m1, m2, -⟩ := h82.seeds R.spheres rfl h.spheres h.works
  exact ⟨h.spheres, ⟨m0, m0', m1, m2⟩, h.grazing, h.thin, hS.watertight, h.fans, h.seeded, h.edges, h.sides⟩

/-- **C110, the whole program**: for a clean input with sharp edges whose sampling ends and meets `EdgedSample`.  Every triangle of the input is covered by the spheres of its three kinds; the seeds of the mesh are as `EdgedSeedsOK` says
whenever the run ends; and it does end, without undefined behaviour and with the Voronoi diagram of the seeds in the files, if the generation of the interior seeds ends, its seeds meet the conditions of C105 and the numbers fit. -/
theorem C110_execute {I : VcInput} (hI : I.Ok) {mps fuel : Nat} {R : Sampled} (hr : sampleModel I mps fuel = some (some R)) (h : EdgedSample I R) {O : MeshSetup} {D : RunDraws}
    (hO : (O.of I).OK R.spheres R.up R.lo D) (hR : EdgesReady R.spheres (O.of I) D) :
    SurfaceOk I R.found R.corner R.edge R.surf R.up R.lo ∧
    ∃ reg nr nb j0 α N, colorSurface I.rb R.spheres R.up R.lo = some (reg, nr) ∧ EdgeFrames R.spheres R.up R.lo nb j0 α ∧ ∀ lf, N ≤ lf →
      (∀ f' f out F, executeVc I O D mps fuel lf f' f = some (some (out, F)) → EdgedSeedsOK R.spheres R.up R.lo nb α out.seeds) ∧
      ∀ out, interiorRun O.ρ (featuresOf R.spheres I.size) I.L I.rmax lf I.T O.imposed O.generate D (seedArrays R.up R.lo reg) = some (some out) → MeshableSeeds out.seeds →
        ∃ F, ∀ f' f, F ≤ f' → F ≤ f → ∃ mesh, voroMesh out.seeds f' f = some (some mesh) ∧ IsDiagramMesh out.seeds mesh ∧
          ((O.exo = true → ExoFits out.seeds mesh) → ∃ E, executeVc I O D mps fuel lf f' f = some (some (out, E)) ∧ FilesOK O (R.up.tree.num + R.lo.tree.num) out.seeds E) := by
  obtain ⟨eD, hD, hC, hE, hS⟩ := C93_sampled I hI mps fuel R hr
  refine ⟨hS, ?_⟩
  have hfree := (C94_destructor I R.found eD).1 hI
  have hex : ∀ lf f' f, executeVc I O D mps fuel lf f' f = meshModel (O.of I) R.spheres R.up R.lo D lf f' f := fun lf f' f => by
    unfold executeVc
    rw [hr]
    simp only [hfree]
  obtain ⟨reg, nr, nb, j0, α, N, c1, c2, -, -, c3⟩ := C110_mesh_run (O := O.of I) (D := D) (h.surface hI hr) hO hR
  refine ⟨reg, nr, nb, j0, α, N, c1, c2, fun lf hf => ⟨fun f' f out F ho => ?_, fun out ho hm => ?_⟩⟩
  · rw [hex] at ho
    exact (c3 lf hf).2.1 f' f out F ho
  · obtain ⟨F, hF⟩ := ((c3 lf hf).2.2 out ho).2 hm
    refine ⟨F, fun f' f h1 h2 => ?_⟩
    rw [hex]
    exact hF f' f h1 h2

end VoroCrust
