import Verif.Props.NoCross
import Verif.Props.Explicit
import Verif.Props.ExecuteRun

/-!
# C109: the run from the sampled surface to the mesh files
-/

namespace VoroCrust

open Classical

variable {Z : SphereSet} {face : Nat → Fin 3 → V3} {up lo : SeedTree}

/-! ## The regions of the surface seeds -/

theorem collectPoints_spec (rb : Nat → Nat → Bool) (n : Nat) (x : Nat → Nat → ℝ) :
    ∃ t, collectPoints rb n x = some t ∧ t.num = n ∧ (∀ q, q < n → t.pts q = x q) ∧ (0 < n → n < t.cap ∧ RealTree t.spheres t.links) := by
  obtain ⟨t, e, h⟩ := addTreePoints_inv (rb := rb) (lt := realLt) (dim := 3) (by norm_num) realLt_asymm ((List.range n).map x) (SmartTree.empty_inv (fun _ _ => 0) id id)
  rw [List.nil_append] at h
  have hn : t.num = n := by rw [h.num]; simp
  refine ⟨t, e, hn, fun q hq => ?_, fun h0 => ⟨?_, ⟨rfl, by norm_num [SmartTree.spheres], ?_⟩⟩⟩
  · rw [h.pts q (by simpa using hq)]; simp
  · obtain ⟨st, e', -, hcap, -⟩ := C04_insert_history realLt realLt_asymm 3 (by norm_num) rb ((List.range n).map x) (by simp; omega) (fun _ _ => 0) id id
    rw [show addTreePoints realLt 3 rb ((List.range n).map x) (SmartTree.empty (fun _ _ => 0) id id) = some t from e] at e'
    obtain rfl := Option.some.inj e'
    omega
  · exact BuiltTree.inserted (dim := 3) realLt rb ((List.range n).map x) _ _ _ t e (by simp; omega)

/-- The two ends of the range are taken. -/
theorem boxRange_taken (v : Nat → ℝ) (m : Nat) : (∃ i, i ≤ m ∧ (boxRange v m).1 = v i) ∧ ∃ i, i ≤ m ∧ (boxRange v m).2 = v i := by
  induction m with
  | zero => exact ⟨⟨0, le_rfl, rfl⟩, ⟨0, le_rfl, rfl⟩⟩
  | succ m ih =>
    obtain ⟨⟨i, hi, e1⟩, ⟨j, hj, e2⟩⟩ := ih
    unfold boxRange
    refine ⟨?_, ?_⟩
    · rcases min_choice (boxRange v m).1 (v (m + 1)) with h | h
      · exact ⟨i, by omega, by rw [h, e1]⟩
      · exact ⟨m + 1, le_rfl, h⟩
    · rcases max_choice (boxRange v m).2 (v (m + 1)) with h | h
      · exact ⟨j, by omega, by rw [h, e2]⟩
      · exact ⟨m + 1, le_rfl, h⟩

/-- The point the outside is found from: in every coordinate beyond the seeds by twice their extent. -/
def FarPoint (n : Nat) (p : Nat → Nat → ℝ) (x : Nat → ℝ) : Prop :=
  ∀ d, ∃ i j, i < n ∧ j < n ∧ x d = p j d + 2 * (p j d - p i d) ∧ ∀ q, q < n → p i d ≤ p q d ∧ p q d ≤ p j d

theorem farPoint_spec {P : PointStore ℝ} (h : 0 < P.num) : FarPoint P.num P.pts (farPoint P) := by
  intro d
  obtain ⟨⟨i, hi, e1⟩, ⟨j, hj, e2⟩⟩ := boxRange_taken (fun i => P.pts i d) (P.num - 1)
  refine ⟨i, j, by omega, by omega, ?_, fun q hq => ?_⟩
  · simp only [farPoint]
    rw [e1, e2]
  · have := boxRange_spec (fun i => P.pts i d) (P.num - 1) q (by omega)
    rw [e1, e2] at this
    exact this

/-- What the colouring of the surface seeds gives: seeds are in one region exactly if a chain of neighbouring triangles leads from one to the other along one side of the surface; region 0 has the seed nearest to a far point. -/
structure SidesOK (Z : SphereSet) (up lo : SeedTree) (reg : Nat → Nat) : Prop where
  sides : ∀ s t, s < up.tree.num + lo.tree.num → t < up.tree.num + lo.tree.num → (reg s = reg t ↔ AlongSurface (fanEnvOf Z up lo) Z.S.num s t)
  outside : ∃ (x : Nat → ℝ) (e : Nat), FarPoint (up.tree.num + lo.tree.num) (mergedSeed up lo) x ∧ e < up.tree.num + lo.tree.num ∧ reg e = 0 ∧
    ∀ q, q < up.tree.num + lo.tree.num → euclid 3 x (mergedSeed up lo e) ≤ euclid 3 x (mergedSeed up lo q)

theorem colorSurface_spec (h : StoredSeeds Z face up lo) (hg : NoGrazing Z) (ht : NotThin Z up lo) (hw : Watertight Z.S.num (lo.attr.map fun a => [a.s1, a.s2, a.s3]))
    (hE : Z.E.num = 0) (hC : Z.C.num = 0) (h1 : ∀ i, i < Z.S.num → OneFan (fanEnvOf Z up lo) i) (hne : 0 < up.tree.num + lo.tree.num) (rb : Nat → Nat → Bool) :
    ∃ reg nr, colorSurface rb Z up lo = some (reg, nr) ∧ SidesOK Z up lo reg := by
  have hS0 : 0 < Z.S.num := by
    obtain ⟨a, ha⟩ : ∃ a, (mergeSeedAttrs up lo)[0]? = some a := ⟨_, List.getElem?_eq_getElem (by rw [h.len]; exact hne)⟩
    have := (h.exact hg ha).seed.valid a.s1 (.inl rfl)
    unfold SphereSet.total at this
    omega
  obtain ⟨S, eS, nS, -, hS⟩ := collectPoints_spec rb (Z.S.num + Z.E.num + Z.C.num) Z.at
  obtain ⟨T, eT, nT, pT, hT⟩ := collectPoints_spec rb (up.tree.num + lo.tree.num) (mergedSeed up lo)
  obtain ⟨cS, -⟩ := hS (by omega)
  obtain ⟨cT, rT⟩ := hT hne
  have hTn : 0 < T.spheres.num := by show 0 < T.num; omega
  obtain ⟨e, b, eq, h6 | h6⟩ := C06_closest_is_exhaustive T.spheres T.links rT (fun _ => true) (farPoint T.spheres) false ⊤ le_top
  · obtain ⟨he, -, hb, -, hmin⟩ := h6
    have he' : e < up.tree.num + lo.tree.num := by rw [← nT]; exact he
    obtain ⟨G, c, g, reg, nr, e1, e2, e3, e4, e5⟩ := C104_regions h hg ht hw (by unfold SphereSet.total; omega) h1 S.cap T.cap 0 0 (by omega) (by omega) e he'
    refine ⟨reg, nr, ?_, e5, farPoint T.spheres, e, ?_, he', e4, fun q hq => ?_⟩
    · unfold colorSurface
      simp only [eS, eT]
      rw [nS, show Z.S.num + Z.E.num + Z.C.num = Z.S.num by omega, e1]
      simp only []
      rw [show Z.S.num + Z.E.num = Z.S.num by omega, e2]
      simp only []
      unfold colourSurfaceSeeds closestSphere
      rw [eq, hb]
      show (match (if e < T.spheres.num then some (e, euclid T.spheres.dim (farPoint T.spheres) (T.spheres.pts e)) else none) with
        | none => none
        | some (iclosest, _) => colourSeeds g T.spheres.num iclosest) = _
      rw [if_pos he]
      show colourSeeds g T.num e = _
      rw [nT, ← h.len]
      exact e3
    · intro d
      obtain ⟨i, j, hi, hj, ex, hq⟩ := farPoint_spec hTn d
      have key : ∀ q, q < up.tree.num + lo.tree.num → T.spheres.pts q = mergedSeed up lo q := pT
      have hn : T.spheres.num = up.tree.num + lo.tree.num := nT
      rw [hn] at hi hj
      refine ⟨i, j, hi, hj, by rw [ex, key i hi, key j hj], fun q hq' => ?_⟩
      have := hq q (by rw [hn]; exact hq')
      rwa [key i hi, key j hj, key q hq'] at this
    · have := hmin q (by show q < T.num; omega) rfl
      have key : ∀ q, q < up.tree.num + lo.tree.num → T.spheres.pts q = mergedSeed up lo q := pT
      rw [key q hq, key e he'] at this
      exact this
  · exact absurd (h6.2.2 0 hTn rfl) (by simp)

/-! ## The outside -/

theorem seedArrays_len (reg : Nat → Nat) : (seedArrays up lo reg).length = up.tree.num + lo.tree.num := by simp [seedArrays]

theorem seedArrays_get (reg : Nat → Nat) {q : Nat} (hq : q < up.tree.num + lo.tree.num) : (seedArrays up lo reg)[q]? = some ⟨mergedSeed up lo q, mergedSeed up lo q 3, reg q⟩ := by
  simp [seedArrays, List.getElem?_range hq]

theorem seedArrays_pos (reg : Nat → Nat) {q : Nat} {s : SeedRec} (h : (seedArrays up lo reg)[q]? = some s) :
    q < up.tree.num + lo.tree.num ∧ s = ⟨mergedSeed up lo q, mergedSeed up lo q 3, reg q⟩ := by
  have hq : q < up.tree.num + lo.tree.num := by rw [← seedArrays_len reg]; exact (List.getElem?_eq_some_iff.1 h).1
  rw [seedArrays_get reg hq] at h
  exact ⟨hq, (Option.some.inj h).symm⟩

/-- The way from a seed to a point of its cell does not meet the surface before it ends. -/
theorem sees_point (h : StoredSeeds Z face up lo) (hg : NoGrazing Z) {e : Nat} (he : e < up.tree.num + lo.tree.num) {x : Nat → ℝ}
    (hx : ∀ q, q < up.tree.num + lo.tree.num → euclid 3 x (mergedSeed up lo e) ≤ euclid 3 x (mergedSeed up lo q)) {t : ℝ} (t0 : 0 ≤ t) (t1 : t < 1) {z : Nat → ℝ}
    (hz : ∀ d, d < 3 → z d = (1 - t) * mergedSeed up lo e d + t * x d) {q : Nat} {a : SeedAttr} (ha : (mergeSeedAttrs up lo)[q]? = some a) : ¬ InTri3 (Z.at a.s1) (Z.at a.s2) (Z.at a.s3) z := by
  intro ht
  have hq : q < up.tree.num + lo.tree.num := by rw [← h.len]; exact (List.getElem?_eq_some_iff.1 ha).1
  have hex := h.exact hg ha
  have hp : ∀ y, y < up.tree.num + lo.tree.num → seedPos (seedArrays up lo fun _ => 0) y = mergedSeed up lo y := fun y hy => by rw [seedPos_eq (seedArrays_get _ hy)]
  have hx' : SeedsAround Z up lo (seedArrays up lo fun _ => 0) 0 a := ⟨by rw [seedArrays_len], fun y hy d _ => by rw [hp y hy], fun y h1 h2 => by rw [seedArrays_len] at h2; omega⟩
  obtain ⟨k1, k2⟩ := triangle_nearest h hg ha le_rfl hx' (R := max (Z.at a.s1 3) (max (Z.at a.s2 3) (Z.at a.s3 3))) (by
    rintro s (rfl | rfl | rfl)
    · exact le_max_left _ _
    · exact le_trans (le_max_left _ _) (le_max_right _ _)
    · exact le_trans (le_max_right _ _) (le_max_right _ _)) ht
  have k3 := k2 e (by rw [seedArrays_len]; exact he)
  rw [hp q hq, hp _ hex.lt] at k1
  rw [hp q hq, hp e he] at k3
  have k4 : euclid 3 z (mergedSeed up lo a.pair) ^ 2 ≤ euclid 3 z (mergedSeed up lo e) ^ 2 := by rw [← k1]; linarith
  -- a seed elsewhere is farther away
  have key : ∀ y, y < up.tree.num + lo.tree.num → 0 < euclid 3 (mergedSeed up lo e) (mergedSeed up lo y) → euclid 3 z (mergedSeed up lo e) ^ 2 < euclid 3 z (mergedSeed up lo y) ^ 2 := by
    intro y hy hpos
    have g := affine_gap (a := mergedSeed up lo e) (b := x) (c := x) (z := z) (u := 1 - t) (v := t) (w := 0) (by ring) (fun d hd => by rw [hz d hd]; ring) (mergedSeed up lo e) (mergedSeed up lo y)
    have s0 : euclid 3 (mergedSeed up lo e) (mergedSeed up lo e) = 0 := euclid_self _ _
    rw [s0] at g
    have g1 : euclid 3 x (mergedSeed up lo e) ^ 2 ≤ euclid 3 x (mergedSeed up lo y) ^ 2 := pow_le_pow_left₀ (euclid_nonneg _ _ _) (hx y hy) 2
    have g2 := mul_nonneg t0 (sub_nonneg.2 g1)
    have g3 : 0 < (1 - t) * euclid 3 (mergedSeed up lo e) (mergedSeed up lo y) ^ 2 := mul_pos (by linarith) (by positivity)
    linarith
  rcases (euclid_nonneg 3 (mergedSeed up lo e) (mergedSeed up lo q)).eq_or_lt with h0 | h0
  · rcases (euclid_nonneg 3 (mergedSeed up lo e) (mergedSeed up lo a.pair)).eq_or_lt with h1 | h1
    · have := euclid_triangle 3 (mergedSeed up lo q) (mergedSeed up lo e) (mergedSeed up lo a.pair)
      rw [euclid_comm 3 (mergedSeed up lo q) (mergedSeed up lo e), ← h0, ← h1] at this
      have := hex.apart
      linarith
    · exact absurd (key _ hex.lt h1) (not_lt.2 k4)
  · exact absurd (key _ hq h0) (not_lt.2 (by linarith))

/-! ## From the surface to the files -/

/-- A sampled surface without sharp features: spheres as C33 and C39 need them, the pairs of seeds of C39, a closed mesh of triangles with one fan of triangles around each sphere (C84), and two sides. -/
structure SmoothSurface (Z : SphereSet) (face : Nat → Fin 3 → V3) (up lo : SeedTree) (L : ℝ) : Prop where
  spheres : Z.OK L
  noEdges : Z.E.num = 0
  noCorners : Z.C.num = 0
  seeds : StoredSeeds Z face up lo
  grazing : NoGrazing Z
  thin : NotThin Z up lo
  closed : Watertight Z.S.num (lo.attr.map fun a => [a.s1, a.s2, a.s3])
  fans : ∀ i, i < Z.S.num → OneFan (fanEnvOf Z up lo) i
  sides : ∃ s t, s < up.tree.num + lo.tree.num ∧ t < up.tree.num + lo.tree.num ∧ ¬ AlongSurface (fanEnvOf Z up lo) Z.S.num s t

/-- Options and random numbers of the second part: sizes are not negative, no more sizing points than spheres (C62), random numbers in their ranges, and, if points are imposed, what C57 and C65 need. -/
structure MeshSetup.OK (O : MeshSetup) (Z : SphereSet) (up lo : SeedTree) (D : RunDraws) : Prop where
  mono : Monotone O.ρ
  nat : ∀ n : Nat, O.ρ (n : ℝ) = n
  rmax : 0 ≤ O.rmax
  few : ∀ t, O.size = some t → t.store.num ≤ Z.S.num
  sizes : ∀ t, O.size = some t → ∀ i, i < t.store.num → 0 ≤ t.store.pts i 3
  inputs : ∀ inp ∈ D.inputs, inp.OK
  us : ∀ i, 0 ≤ D.us i ∧ D.us i ≤ 1
  imposed : ∀ reg, ImposeOK (featuresOf Z O.size) O.L (seedArrays up lo reg) O.imposed D

theorem recsOf_mem {P : PointStore ℝ} {q : SeedRec} : q ∈ recsOf P ↔ ∃ i, i < P.num ∧ q = ⟨P.pts i, P.pts i 3, 0⟩ := by
  simp only [recsOf, List.mem_map, List.mem_range, eq_comm]

theorem recsOf_good {P : PointStore ℝ} {ln : Links} {L : ℝ} (h : TreeOrEmpty P ln L) : GoodSpheres L (recsOf P) := by
  refine ⟨fun q hq => ?_, fun p hp q hq => ?_⟩
  · obtain ⟨i, hi, rfl⟩ := recsOf_mem.1 hq
    rcases h with h | ⟨h, -⟩
    · omega
    · exact h.nonneg i hi
  · obtain ⟨i, hi, rfl⟩ := recsOf_mem.1 hp
    obtain ⟨j, hj, rfl⟩ := recsOf_mem.1 hq
    rcases h with h | ⟨-, h⟩
    · omega
    · exact h i j hi hj

theorem recsOf_nil {P : PointStore ℝ} (h : P.num = 0) : recsOf P = [] := by simp [recsOf, h]

theorem recsOf_len (P : PointStore ℝ) : (recsOf P).length = P.num := by simp [recsOf]

/-- The seeds before the explicit mesh is made. -/
structure MeshSeedsOK (Z : SphereSet) (up lo : SeedTree) (xs : List SeedRec) : Prop where
  /-- the seeds of the surface come first, at their places -/
  first : up.tree.num + lo.tree.num ≤ xs.length ∧ ∀ (q : Nat) (b : SeedRec), q < up.tree.num + lo.tree.num → xs[q]? = some b → b.x = mergedSeed up lo q
  /-- two of them are in one region exactly if a chain of neighbouring triangles leads from one to the other along one side of the surface -/
  sides : ∀ (s t : Nat) (a b : SeedRec), s < up.tree.num + lo.tree.num → t < up.tree.num + lo.tree.num → xs[s]? = some a → xs[t]? = some b →
    (a.region = b.region ↔ AlongSurface (fanEnvOf Z up lo) Z.S.num s t)
  /-- region 0 is outside: it has a seed from which a straight way leads to a point beyond all of them without meeting the surface -/
  outside : ∃ (x : Nat → ℝ) (e : Nat) (b : SeedRec), FarPoint (up.tree.num + lo.tree.num) (mergedSeed up lo) x ∧ e < up.tree.num + lo.tree.num ∧ xs[e]? = some b ∧ b.region = 0 ∧
    ∀ t : ℝ, 0 ≤ t → t < 1 → ∀ z, (∀ d, d < 3 → z d = (1 - t) * b.x d + t * x d) → ∀ (q : Nat) (a : SeedAttr), (mergeSeedAttrs up lo)[q]? = some a → ¬ InTri3 (Z.at a.s1) (Z.at a.s2) (Z.at a.s3) z
  /-- the other seeds are outside all spheres, up to `1e-10`, and have a region of a seed of the surface that is not the outside -/
  later : ∀ (i : Nat) (b : SeedRec), up.tree.num + lo.tree.num ≤ i → xs[i]? = some b → b.region ≠ 0 ∧ (∃ (q : Nat) (a : SeedRec), q < up.tree.num + lo.tree.num ∧ xs[q]? = some a ∧ a.region = b.region) ∧
    ∀ s, s < Z.total → Z.at s 3 - 1e-10 ≤ euclid 3 b.x (Z.at s)
  /-- the cells of a pair of seeds meet in their triangle -/
  face : ∀ (q : Nat) (a : SeedAttr), (mergeSeedAttrs up lo)[q]? = some a → ∀ z, CommonFace xs q a.pair z → InTri3 (Z.at a.s1) (Z.at a.s2) (Z.at a.s3) z
  /-- no cell crosses the surface -/
  cross : ∀ R, (∀ s, s < Z.total → Z.at s 3 ≤ R) → ∀ i, i < xs.length → ∀ u w, DeepInside xs (2 * 1e-10 * R) i u → DeepInside xs (2 * 1e-10 * R) i w → ∀ z, BetweenPoints u w z →
    ∀ (q : Nat) (a : SeedAttr), (mergeSeedAttrs up lo)[q]? = some a → ¬ InTri3 (Z.at a.s1) (Z.at a.s2) (Z.at a.s3) z

theorem StoredSeeds.size_nonneg (h : StoredSeeds Z face up lo) (hg : NoGrazing Z) {q : Nat} (hq : q < up.tree.num + lo.tree.num) : 0 ≤ mergedSeed up lo q 3 := by
  obtain ⟨a, ha⟩ : ∃ a, (mergeSeedAttrs up lo)[q]? = some a := ⟨_, List.getElem?_eq_getElem (by rw [h.len]; exact hq)⟩
  have hs := (h.exact hg ha).seed
  have r : ∀ s, a.Has s → 0 ≤ Z.at s 3 := fun s hs' => by rw [← hs.on s hs']; exact euclid_nonneg _ _ _
  obtain ⟨y, hu, hl, -⟩ := (h.ok q a ha).mirror
  have e : mergedSeed up lo q 3 = min (min (Z.at a.s1 3) (Z.at a.s2 3)) (Z.at a.s3 3) := by
    by_cases hlt : q < up.tree.num
    · exact (hu hlt).size.1
    · exact (hl (not_lt.1 hlt)).size.2
  rw [e]
  exact le_min (le_min (r _ (.inl rfl)) (r _ (.inr (.inl rfl)))) (r _ (.inr (.inr rfl)))

theorem SidesOK.inner {reg : Nat → Nat} {L : ℝ} (h : SidesOK Z up lo reg) (hS : SmoothSurface Z face up lo L) : ∃ q, q < up.tree.num + lo.tree.num ∧ reg q ≠ 0 := by
  obtain ⟨s, t, hs, ht, hn⟩ := hS.sides
  by_contra hcon
  push Not at hcon
  exact hn ((h.sides s t hs ht).1 ((hcon s hs).trans (hcon t ht).symm))

/-- From the regions of the surface seeds to all seeds. -/
theorem interior_seeds {O : MeshSetup} {D : RunDraws} (hS : SmoothSurface Z face up lo O.L) (hO : O.OK Z up lo D) {reg : Nat → Nat} (hr : SidesOK Z up lo reg) :
    ∃ N, ∀ lf, N ≤ lf → (O.imposed = none → interiorRun O.ρ (featuresOf Z O.size) O.L O.rmax lf O.threads O.imposed O.generate D (seedArrays up lo reg) ≠ none) ∧
      ∀ out, interiorRun O.ρ (featuresOf Z O.size) O.L O.rmax lf O.threads O.imposed O.generate D (seedArrays up lo reg) = some (some out) → MeshSeedsOK Z up lo out.seeds ∧ (∀ b ∈ out.seeds, 0 ≤ b.size) := by
  have hg := hS.grazing
  have hst := hS.seeds
  have eE : (featuresOf Z O.size).edges = [] := recsOf_nil hS.noEdges
  have eC : (featuresOf Z O.size).corners = [] := recsOf_nil hS.noCorners
  have hF : (featuresOf Z O.size).OK O.L := ⟨hS.spheres.nonneg, hS.spheres.lt, recsOf_good hS.spheres.s, recsOf_good hS.spheres.e, recsOf_good hS.spheres.c⟩
  have hsz : SizingOK (featuresOf Z O.size) := by
    intro q hq
    unfold featuresOf at hq
    cases e : O.size with
    | none => simp [e] at hq
    | some t =>
      simp only [e] at hq
      obtain ⟨i, hi, rfl⟩ := recsOf_mem.1 hq
      exact hO.sizes t e i hi
  have hc : (featuresOf Z O.size).corners.length ≤ (featuresOf Z O.size).surface.length := by rw [eC]; exact Nat.zero_le _
  have hz : (featuresOf Z O.size).sizing.length ≤ (featuresOf Z O.size).surface.length := by
    unfold featuresOf
    cases e : O.size with
    | none => exact Nat.zero_le _
    | some t =>
      simp only [recsOf_len]
      exact hO.few t e
  have hEd : EdgesOK (featuresOf Z O.size) := by intro i s hs; rw [eE] at hs; simp at hs
  have hd : AllDrawsOK (featuresOf Z O.size) D.vs D.ys := by intro i s hs; rw [eE] at hs; simp at hs
  have hZF : SameSpheres Z (featuresOf Z O.size) := by
    refine ⟨fun s hs => ⟨⟨Z.S.pts s, Z.S.pts s 3, 0⟩, recsOf_mem.2 ⟨s, hs, rfl⟩, ?_, ?_⟩, fun s h1 h2 => ?_⟩
    · unfold SphereSet.at; rw [if_pos hs]
    · unfold SphereSet.at; rw [if_pos hs]
    · have e1 := hS.noEdges
      have e2 := hS.noCorners
      unfold SphereSet.total at h2
      omega
  have h0 : ∀ a ∈ seedArrays up lo reg, 0 ≤ a.size := by
    intro a ha
    obtain ⟨q, hq⟩ := List.getElem?_of_mem ha
    obtain ⟨hq', rfl⟩ := seedArrays_pos reg hq
    exact hst.size_nonneg hg hq'
  obtain ⟨q0, hq0, hr0⟩ := hr.inner hS
  have hin : ∃ a ∈ seedArrays up lo reg, a.region ≠ 0 := ⟨_, List.mem_of_getElem? (seedArrays_get reg hq0), hr0⟩
  obtain ⟨N1, hN1⟩ := C98_interior_run_partial hO.mono hO.nat (rmax := O.rmax) hF hsz hO.rmax hc hz hEd O.threads O.imposed O.generate D hd hO.inputs hO.us (seedArrays up lo reg) h0 hin (hO.imposed reg)
  obtain ⟨N2, hN2⟩ := run_seeds_around hO.mono hO.nat hst hg (rmax := O.rmax) hF hsz hO.rmax hc hz hEd hZF O.threads O.imposed O.generate D hd hO.inputs hO.us (seedArrays up lo reg) h0 hin (hO.imposed reg)
    (seedArrays_len reg) (fun q s hs d _ => by obtain ⟨-, rfl⟩ := seedArrays_pos reg hs; rfl)
  refine ⟨max N1 N2, fun lf hf => ⟨(hN1 lf (le_trans (le_max_left _ _) hf)).1, fun out ho => ?_⟩⟩
  obtain ⟨g1, g2, ⟨k, m, hk, g3, -⟩, -⟩ := (hN1 lf (le_trans (le_max_left _ _) hf)).2 out ho
  have har : ∀ (q : Nat) (a : SeedAttr), (mergeSeedAttrs up lo)[q]? = some a → SeedsAround Z up lo out.seeds 1e-10 a := fun q a ha => hN2 lf (le_trans (le_max_right _ _) hf) out ho q a ha (.inr eE)
  have hfirst : ∀ q, q < up.tree.num + lo.tree.num → ∃ b, out.seeds[q]? = some b ∧ b.x = mergedSeed up lo q ∧ b.region = reg q := fun q hq => by
    obtain ⟨b, e, e1, e2, -⟩ := g1 q _ (seedArrays_get reg hq)
    exact ⟨b, e, e1, e2⟩
  have hlen : up.tree.num + lo.tree.num ≤ out.seeds.length := by
    by_contra hcon
    obtain ⟨b, e, -⟩ := hfirst out.seeds.length (by omega)
    simp at e
  refine ⟨⟨⟨hlen, fun q b hq e => ?_⟩, fun s t a b hs ht ea eb => ?_, ?_, fun i b hi e => ?_, fun q a ha z => ?_, fun R hR i hi u w hu hw z hz q a ha => ?_⟩, g2⟩
  · obtain ⟨b', e', h1, -⟩ := hfirst q hq
    rw [e] at e'
    rw [Option.some.inj e', h1]
  · obtain ⟨a', ea', -, h1⟩ := hfirst s hs
    obtain ⟨b', eb', -, h2⟩ := hfirst t ht
    rw [ea] at ea'
    rw [eb] at eb'
    obtain rfl := Option.some.inj ea'
    obtain rfl := Option.some.inj eb'
    rw [h1, h2]
    exact hr.sides s t hs ht
  · obtain ⟨x, e, hx, he, hre, hn⟩ := hr.outside
    obtain ⟨b, eb, h1, h2⟩ := hfirst e he
    refine ⟨x, e, b, hx, he, eb, by rw [h2, hre], fun t t0 t1 z hz q a ha => ?_⟩
    rw [h1] at hz
    exact sees_point hst hg he hn t0 t1 hz ha
  · obtain ⟨h1, h2, ⟨a, ha, h3⟩, -⟩ := g3 i b (by rw [seedArrays_len]; exact hi) e
    refine ⟨h1, ?_, fun s hs => ?_⟩
    · obtain ⟨q, hq⟩ := List.getElem?_of_mem ha
      obtain ⟨hq', rfl⟩ := seedArrays_pos reg hq
      obtain ⟨b', e', -, h4⟩ := hfirst q hq'
      exact ⟨q, b', hq', e', h4.trans h3⟩
    · have hs' : s < Z.S.num := by
        have e1 := hS.noEdges
        have e2 := hS.noCorners
        unfold SphereSet.total at hs
        omega
      obtain ⟨p, hp, e1, e2⟩ := hZF.surface s hs'
      rw [← e2, ← e1]
      exact h2 p hp
  · refine face_in_triangle hst hg hS.closed ha (.inl ?_) (har q a ha)
    have := (hst.exact hg ha).seed.valid a.s2 (.inr (.inl rfl))
    have e1 := hS.noEdges
    have e2 := hS.noCorners
    unfold SphereSet.total at this
    omega
  · exact C108_no_crossing hst hg out.seeds (by norm_num) hR ha (har q a ha) hi hu hw hz

/-- The conditions of C105 on the seeds: no two nearer than `2e-5`, different corners of cells apart, few seeds at the same distance, and the searches of the mesher clear. -/
structure MeshableSeeds (xs : List SeedRec) : Prop where
  apart : ∀ i j, i < xs.length → j < xs.length → i ≠ j → 2e-5 ≤ euclid 3 (seedPos xs i) (seedPos xs j)
  gap : VertexGap xs
  few : FewNearest xs
  cell : ∀ i s, xs[i]? = some s → s.region ≠ 0 → 1e-11 ≤ 2 * s.size ∧ ∃ M, (∀ m, m ≤ M → GapPos (seedPos xs) xs.length (seedPos xs i) (10 * (2 * s.size * 2 ^ (m + 1))) ∧ SearchClear xs i (2 * s.size * 2 ^ (m + 1))) ∧
    ∀ z, InVoronoi xs i z → 2 * euclid 3 z (seedPos xs i) < 2 * s.size * 2 ^ (M + 1)

/-- What is written: nothing if no file is asked for, else the files of C107 for the diagram of the seeds. -/
def FilesOK (O : MeshSetup) (ns : Nat) (xs : List SeedRec) (R : Option ExplicitRun) : Prop :=
  if O.vcg || O.exo then ∃ r, R = some r ∧ IsDiagramMesh xs r.mesh ∧ ExplicitOK O.flt O.vcg O.exo ns (FlatFace xs) xs r else R = none

/-- **C109**: the run from a sampled surface without sharp features to the mesh files.  The colouring of the surface seeds has no undefined behaviour, nor has the generation of the interior seeds if no points are imposed.  If that ends, the
seeds are as `MeshSeedsOK` says: regions are the sides of the surface, region 0 is outside, and no cell crosses the surface.  If these seeds meet the conditions of C105 and the numbers fit into `int`, the whole run ends without undefined
behaviour, and the files hold the Voronoi diagram of the seeds. -/
theorem C109_mesh_run {O : MeshSetup} {D : RunDraws} (hS : SmoothSurface Z face up lo O.L) (hO : O.OK Z up lo D) :
    ∃ reg nr N, colorSurface O.rb Z up lo = some (reg, nr) ∧ SidesOK Z up lo reg ∧ ∀ lf, N ≤ lf →
      (O.imposed = none → interiorRun O.ρ (featuresOf Z O.size) O.L O.rmax lf O.threads O.imposed O.generate D (seedArrays up lo reg) ≠ none) ∧
      (∀ f' f out R, meshModel O Z up lo D lf f' f = some (some (out, R)) → MeshSeedsOK Z up lo out.seeds) ∧
      ∀ out, interiorRun O.ρ (featuresOf Z O.size) O.L O.rmax lf O.threads O.imposed O.generate D (seedArrays up lo reg) = some (some out) → MeshSeedsOK Z up lo out.seeds ∧
        (MeshableSeeds out.seeds → ∃ F, ∀ f' f, F ≤ f' → F ≤ f → ∃ mesh, voroMesh out.seeds f' f = some (some mesh) ∧ IsDiagramMesh out.seeds mesh ∧
          ((O.exo = true → ExoFits out.seeds mesh) → ∃ R, meshModel O Z up lo D lf f' f = some (some (out, R)) ∧ FilesOK O (up.tree.num + lo.tree.num) out.seeds R)) := by
  have hne : 0 < up.tree.num + lo.tree.num := by
    obtain ⟨s, t, hs, -⟩ := hS.sides
    omega
  obtain ⟨reg, nr, ec, hr⟩ := colorSurface_spec hS.seeds hS.grazing hS.thin hS.closed hS.noEdges hS.noCorners hS.fans hne O.rb
  obtain ⟨N, hN⟩ := interior_seeds hS hO hr
  refine ⟨reg, nr, N, ec, hr, fun lf hf => ⟨(hN lf hf).1, fun f' f out R ho => ?_, fun out ho => ?_⟩⟩
  · unfold meshModel at ho
    rw [ec] at ho
    simp only [] at ho
    split at ho
    · simp at ho
    · simp at ho
    · rename_i out' eo
      split at ho
      · split at ho
        · simp at ho
        · simp at ho
        · obtain ⟨rfl, -⟩ := Prod.mk.inj (Option.some.inj (Option.some.inj ho))
          exact ((hN lf hf).2 _ eo).1
      · obtain ⟨rfl, -⟩ := Prod.mk.inj (Option.some.inj (Option.some.inj ho))
        exact ((hN lf hf).2 _ eo).1
  · obtain ⟨h1, h2⟩ := (hN lf hf).2 out ho
    refine ⟨h1, fun hm => ?_⟩
    have hin : ∃ i, InnerSeed out.seeds i := by
      obtain ⟨s, t, hs, ht, hn⟩ := hS.sides
      have es : out.seeds[s]? = some (out.seeds[s]'(lt_of_lt_of_le hs h1.first.1)) := List.getElem?_eq_getElem _
      have et : out.seeds[t]? = some (out.seeds[t]'(lt_of_lt_of_le ht h1.first.1)) := List.getElem?_eq_getElem _
      by_contra hcon
      have z1 : (out.seeds[s]'(lt_of_lt_of_le hs h1.first.1)).region = 0 := by_contra fun h => hcon ⟨s, _, es, h⟩
      have z2 : (out.seeds[t]'(lt_of_lt_of_le ht h1.first.1)).region = 0 := by_contra fun h => hcon ⟨t, _, et, h⟩
      exact hn ((h1.sides s t _ _ hs ht es et).1 (z1.trans z2.symm))
    obtain ⟨F, hF⟩ := C107_explicit_mesh O.flt O.vcg O.exo (up.tree.num + lo.tree.num) out.seeds (fun i s hi hs => (h1.later i s hi hs).1) h2 hm.apart hm.gap hm.few hin hm.cell
    refine ⟨F, fun f' f hf1 hf2 => ?_⟩
    obtain ⟨mesh, e1, e2, e3⟩ := hF f' f hf1 hf2
    refine ⟨mesh, e1, e2, fun hfit => ?_⟩
    unfold meshModel FilesOK
    rw [ec]
    simp only [ho, seedArrays_len]
    by_cases hw : (O.vcg || O.exo) = true
    · obtain ⟨r, f1, f2, f3⟩ := e3 hfit
      rw [if_pos hw, f1]
      refine ⟨some r, rfl, ?_⟩
      rw [if_pos hw]
      exact ⟨r, rfl, by rw [f2]; exact e2, f3⟩
    · rw [if_neg hw]
      refine ⟨none, rfl, ?_⟩
      rw [if_neg hw]

/-! ## The whole program -/

theorem sampleModel_surface {I : VcInput} {mps fuel : Nat} {R : Sampled} (h : sampleModel I mps fuel = some (some R)) :
    surfaceSpheres (I.surfSetup R.found R.corner R.edge) mps fuel = some (some (R.surf, R.up, R.lo)) := by
  unfold sampleModel at h
  split at h
  · simp at h
  · split at h
    · simp at h
    · split at h
      · simp at h
      · simp at h
      · split at h
        · simp at h
        · simp at h
        · rename_i e
          obtain rfl := Option.some.inj (Option.some.inj h)
          exact e

/-- What is assumed of the spheres and seeds a sampling leaves: no sharp features, radii as the searches need them (C82 gives this for `L` from 1/2 on), the power vertex always found (C39), and the last five of `SmoothSurface`. -/
structure SmoothSample (I : VcInput) (R : Sampled) : Prop where
  smooth : R.found.edges = []
  lip : LipschitzRadii R.surf.tree.spheres I.L
  works : ∀ k, ((I.surfSetup R.found R.corner R.edge).env R.spheres { R.surf with seedings := k }).Works R.spheres
  grazing : NoGrazing R.spheres
  thin : NotThin R.spheres R.up R.lo
  fans : ∀ i, i < R.surf.tree.num → OneFan (fanEnvOf R.spheres R.up R.lo) i
  sides : ∃ s t, s < R.up.tree.num + R.lo.tree.num ∧ t < R.up.tree.num + R.lo.tree.num ∧ ¬ AlongSurface (fanEnvOf R.spheres R.up R.lo) R.surf.tree.num s t

theorem SmoothSample.surface {I : VcInput} (hI : I.Ok) {mps fuel : Nat} {R : Sampled} (hr : sampleModel I mps fuel = some (some R)) (h : SmoothSample I R) :
    SmoothSurface R.spheres (recordedFace (I.surfSetup R.found R.corner R.edge) R.surf) R.up R.lo I.L := by
  obtain ⟨-, hD, hC, hE, hS⟩ := C93_sampled I hI mps fuel R hr
  have e1 : R.edge.tree.num = 0 := hE.none h.smooth
  have e2 : R.corner.store.num = 0 := hC.none (by
    by_contra hne
    exact hD.edges_ne hne h.smooth)
  have hZ : R.spheres.OK I.L := ⟨hI.L0, hI.L1, .inr ⟨hS.tree, h.lip⟩, .inl e1, .inl e2⟩
  have h82 := C82_surface_spheres _ (surfSetup_ok hI hD (by norm_num) (by norm_num) hC hE) mps fuel R.surf R.up R.lo (sampleModel_surface hr)
  obtain ⟨⟨m0, m0'⟩, m1, m2, -⟩ := h82.seeds R.spheres rfl hZ h.works
  exact ⟨hZ, e1, e2, ⟨m0, m0', m1, m2⟩, h.grazing, h.thin, hS.watertight, h.fans, h.sides⟩

/-- **C109, the whole program**: for a clean input whose sampling ends without sharp features, meeting `SmoothSample`.  Every triangle of the input is covered by the spheres; the seeds of the mesh are as `MeshSeedsOK` says whenever the
run ends; and it does end, without undefined behaviour and with the Voronoi diagram of the seeds in the files, if the generation of the interior seeds ends, its seeds meet the conditions of C105 and the numbers fit. -/
theorem C109_execute {I : VcInput} (hI : I.Ok) {mps fuel : Nat} {R : Sampled} (hr : sampleModel I mps fuel = some (some R)) (h : SmoothSample I R) {O : MeshSetup} {D : RunDraws}
    (hO : (O.of I).OK R.spheres R.up R.lo D) :
    (∀ f, f < I.faces.length → ∀ x, InTriangle (I.point (I.surface.corner f 0)) (I.point (I.surface.corner f 1)) (I.point (I.surface.corner f 2)) x → InBall R.surf.tree.asSTree (Real.sqrt (1 - 0.4 ^ 2)) x) ∧
    ∃ reg nr N, colorSurface I.rb R.spheres R.up R.lo = some (reg, nr) ∧ ∀ lf, N ≤ lf →
      (∀ f' f out F, executeVc I O D mps fuel lf f' f = some (some (out, F)) → MeshSeedsOK R.spheres R.up R.lo out.seeds) ∧
      ∀ out, interiorRun O.ρ (featuresOf R.spheres I.size) I.L I.rmax lf I.T O.imposed O.generate D (seedArrays R.up R.lo reg) = some (some out) → MeshableSeeds out.seeds →
        ∃ F, ∀ f' f, F ≤ f' → F ≤ f → ∃ mesh, voroMesh out.seeds f' f = some (some mesh) ∧ IsDiagramMesh out.seeds mesh ∧
          ((O.exo = true → ExoFits out.seeds mesh) → ∃ E, executeVc I O D mps fuel lf f' f = some (some (out, E)) ∧ FilesOK O (R.up.tree.num + R.lo.tree.num) out.seeds E) := by
  obtain ⟨eD, hD, hC, hE, hS⟩ := C93_sampled I hI mps fuel R hr
  have e1 : R.edge.tree.num = 0 := hE.none h.smooth
  have e2 : R.corner.store.num = 0 := hC.none (by
    by_contra hne
    exact hD.edges_ne hne h.smooth)
  refine ⟨fun f hf x hx => ?_, ?_⟩
  · rcases hS.covered f hf x hx with h1 | ⟨i, hi, -⟩ | ⟨i, hi, -⟩
    · exact h1
    · have hi : i < R.edge.tree.num := hi
      omega
    · omega
  · have hfree := (C94_destructor I R.found eD).1 hI
    have hex : ∀ lf f' f, executeVc I O D mps fuel lf f' f = meshModel (O.of I) R.spheres R.up R.lo D lf f' f := fun lf f' f => by
      unfold executeVc
      rw [hr]
      simp only [hfree]
    obtain ⟨reg, nr, N, c1, -, c3⟩ := C109_mesh_run (O := O.of I) (D := D) (h.surface hI hr) hO
    refine ⟨reg, nr, N, c1, fun lf hf => ⟨fun f' f out F ho => ?_, fun out ho hm => ?_⟩⟩
    · rw [hex] at ho
      exact (c3 lf hf).2.1 f' f out F ho
    · obtain ⟨F, hF⟩ := ((c3 lf hf).2.2 out ho).2 hm
      refine ⟨F, fun f' f h1 h2 => ?_⟩
      rw [hex]
      exact hF f' f h1 h2

/-- **C109, no seeds.** If the sampling ends without seeds the colouring reads the closest seed of an empty tree: undefined, whatever the spheres and options. -/
theorem C109_no_seeds_undefined (O : MeshSetup) (Z : SphereSet) (D : RunDraws) (lf f' f : Nat) : meshModel O Z SeedTree.empty SeedTree.empty D lf f' f = none := by
  have hc : colorSurface O.rb Z SeedTree.empty SeedTree.empty = none := by
    unfold colorSurface
    obtain ⟨S, eS, nS, -, -⟩ := collectPoints_spec O.rb (Z.S.num + Z.E.num + Z.C.num) Z.at
    obtain ⟨T, eT, nT, -, -⟩ := collectPoints_spec O.rb (SeedTree.empty.tree.num + SeedTree.empty.tree.num) (mergedSeed SeedTree.empty SeedTree.empty)
    rw [eS, eT]
    simp only []
    split
    · rfl
    · split
      · rfl
      · unfold colourSurfaceSeeds
        have : closestSphere T.spheres T.links (farPoint T.spheres) = none := by
          have h0 : T.spheres.num = 0 := nT
          unfold closestSphere
          split
          · rw [h0, if_neg (Nat.not_lt_zero _)]
          · rfl
        rw [this]
  unfold meshModel
  rw [hc]

/-- The octahedron of C93 is such an input: one sphere covers it and there are no seeds. -/
theorem C109_octahedron_undefined (O : MeshSetup) (D : RunDraws) (mps fuel lf f' f : Nat) (hm : 101 ≤ mps) : octInput.Ok ∧ executeVc octInput O D mps (fuel + 1) lf f' f = none := by
  obtain ⟨hok, R, hr, -, e1, e2⟩ := octahedron_returns mps fuel hm
  refine ⟨hok, ?_⟩
  obtain ⟨eD, -⟩ := C93_sampled octInput hok mps (fuel + 1) R hr
  unfold executeVc
  rw [hr]
  simp only [(C94_destructor octInput R.found eD).1 hok, e1, e2]
  exact C109_no_seeds_undefined _ _ D lf f' f

end VoroCrust
