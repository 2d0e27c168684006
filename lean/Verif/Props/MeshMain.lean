import Verif.Props.MeshVoronoi

/-!
# C102: the explicit mesh is the Voronoi mesh
-/

namespace VoroCrust

open Classical

/-! ## More fuel changes nothing -/

theorem cellLoop_more {x : Nat → ℝ} {loc : List (Nat → ℝ)} (f : Nat) : ∀ {c : Nat} {P R : Poly} {g : Nat}, cellLoop x loc f c P = some (some R) → f ≤ g → cellLoop x loc g c P = some (some R) := by
  induction f with
  | zero => intro c P R g h; simp [cellLoop] at h
  | succ f ih =>
    intro c P R g h hg
    obtain ⟨g, rfl⟩ := Nat.exists_eq_succ_of_ne_zero (by omega : g ≠ 0)
    unfold cellLoop at h ⊢
    by_cases hc : c < P.num
    · rw [if_pos hc] at h ⊢
      cases e : cellStep x loc c P with
      | none => rw [e] at h; simp at h
      | some Q =>
        rw [e] at h
        exact ih h (by omega)
    · rw [if_neg hc] at h ⊢
      exact h

theorem getCell_more {T : MTree} {ghost : Nat → Bool} {seed : Nat} {f' g' : Nat} (hf' : f' ≤ g') (f : Nat) : ∀ {r : ℝ} {l : List CellCorner} {g : Nat}, getCell T ghost seed f' f r = some (some l) → f ≤ g → getCell T ghost seed g' g r = some (some l) := by
  induction f with
  | zero => intro r l g h; simp [getCell] at h
  | succ f ih =>
    intro r l g h hg
    obtain ⟨g, rfl⟩ := Nat.exists_eq_succ_of_ne_zero (by omega : g ≠ 0)
    unfold getCell at h ⊢
    cases hq : sphereQuery Rounding.exact T.P T.ln (fun _ => true) (inSphereTest (r * 2)) (T.P.pts seed) (r * 2) with
    | none => rw [hq] at h; simp at h
    | some q =>
      rw [hq] at h
      cases q with
      | nil => exact ih h (by omega)
      | cons q qs =>
        simp only at h ⊢
        cases hc : cellLoop (T.P.pts seed) ((q :: qs).map T.P.pts) f' 0 (initPoly (T.P.pts seed) (10 * (r * 2))) with
        | none => rw [hc] at h; simp at h
        | some o =>
          rw [hc] at h
          cases o with
          | none => simp at h
          | some P =>
            rw [cellLoop_more f' hc hf']
            simp only at h ⊢
            by_cases hrv : 2 * Real.sqrt (farthestSq (T.P.pts seed) P P.num) < r * 2 + 1e-10
            · rw [if_pos hrv] at h ⊢
              exact h
            · rw [if_neg hrv] at h ⊢
              exact ih h (by omega)

/-- The cells when each of them is found. -/
theorem meshCells_some {T : MTree} {xs : List SeedRec} (h : T.Holds xs) {f' f : Nat} (hall : ∀ a o s, a < xs.length → meshSeed T xs a = some (o, s) → s.region ≠ 0 → ∃ lc l, getCell T (ghostSeed T xs) a f' f (2 * s.size) = some (some lc) ∧ oldCorners T lc = some l)
    (k : Nat) : ∀ {i : Nat} (C : Cells), i + k ≤ xs.length → ∃ R, ∀ g' g, f' ≤ g' → f ≤ g → meshCells T xs g' g k i C = some (some R) := by
  induction k with
  | zero => intro i C _; exact ⟨C, fun _ _ _ _ => rfl⟩
  | succ k ih =>
    intro i C hi
    obtain ⟨o, s, -, h2, -⟩ := meshSeed_spec h (show i < xs.length by omega)
    by_cases hr : s.region = 0
    · obtain ⟨R, hR⟩ := ih (i := i + 1) C (by omega)
      refine ⟨R, fun g' g hg' hg => ?_⟩
      unfold meshCells
      rw [h2]
      simp only
      rw [if_pos hr]
      exact hR g' g hg' hg
    · obtain ⟨lc, l, e1, e2⟩ := hall i o s (by omega) h2 hr
      obtain ⟨R, hR⟩ := ih (i := i + 1) (upd C o (some l)) (by omega)
      refine ⟨R, fun g' g hg' hg => ?_⟩
      unfold meshCells
      rw [h2]
      simp only
      rw [if_neg hr, getCell_more hg' f e1 hg]
      simp only [andThen]
      rw [e2]
      exact hR g' g hg' hg

/-! ## General position in the order of the tree -/

/-- A wall in the order of the seeds. -/
def oldWall (T : MTree) : Wall → Wall
  | Wall.box k => Wall.box k
  | Wall.pt z => Wall.pt ((oldAt T z).getD 0)

theorem GeneralPos.toTree {T : MTree} {xs : List SeedRec} (h : T.Holds xs) {x : Nat → ℝ} {B : ℝ} (hg : GeneralPos (seedPos xs) xs.length x B) : GeneralPos T.P.pts T.P.num x B := by
  have pt : ∀ {z}, z < T.P.num → ∃ o, oldAt T z = some o ∧ o < xs.length ∧ T.P.pts z = seedPos xs o ∧ oldWall T (Wall.pt z) = Wall.pt o := fun {z} hz => by
    rw [h.num] at hz
    obtain ⟨o, s, h1, -⟩ := oldAt_spec h hz
    obtain ⟨h2, h3⟩ := oldAt_pos h hz h1
    exact ⟨o, h1, h3, h2, by simp only [oldWall, h1, Option.getD_some]⟩
  have wl : ∀ {w}, SeedWall T.P.pts T.P.num x w → SeedWall (seedPos xs) xs.length x (oldWall T w) ∧ seedPl x B (seedPos xs) (oldWall T w) = seedPl x B T.P.pts w := by
    rintro w (⟨k, hk, rfl⟩ | ⟨z, rfl, hz, hzx⟩)
    · exact ⟨Or.inl ⟨k, hk, rfl⟩, rfl⟩
    · obtain ⟨o, e1, e2, e3, e4⟩ := pt hz
      rw [e4]
      exact ⟨Or.inr ⟨o, rfl, e2, by rw [← e3]; exact hzx⟩, by simp only [seedPl, e3]⟩
  have inj : ∀ {w w'}, SeedWall T.P.pts T.P.num x w → SeedWall T.P.pts T.P.num x w' → oldWall T w = oldWall T w' → w = w' := by
    rintro w w' (⟨k, hk, rfl⟩ | ⟨z, rfl, hz, hzx⟩) (⟨k', hk', rfl⟩ | ⟨z', rfl, hz', hzx'⟩) e
    · exact e
    · simp [oldWall] at e
    · simp [oldWall] at e
    · obtain ⟨o, e1, -, -, e4⟩ := pt hz
      obtain ⟨o', e1', -, -, e4'⟩ := pt hz'
      rw [e4, e4'] at e
      obtain rfl : o = o' := by simpa using e
      rw [h.num] at hz hz'
      rw [oldAt_inj h hz hz' e1 e1']
  intro a b c z v ha hb hc hab hac hbc hz hzx za zb zc oa ob oc
  have hw : SeedWall T.P.pts T.P.num x (Wall.pt z) := Or.inr ⟨z, rfl, hz, hzx⟩
  obtain ⟨o, e1, e2, e3, e4⟩ := pt hz
  have := hg (oldWall T a) (oldWall T b) (oldWall T c) o v (wl ha).1 (wl hb).1 (wl hc).1 (fun e => hab (inj ha hb e)) (fun e => hac (inj ha hc e)) (fun e => hbc (inj hb hc e)) e2 (by rw [← e3]; exact hzx)
    (fun e => za (inj hw ha (e4.trans e))) (fun e => zb (inj hw hb (e4.trans e))) (fun e => zc (inj hw hc (e4.trans e))) (by rw [(wl ha).2]; exact oa) (by rw [(wl hb).2]; exact ob) (by rw [(wl hc).2]; exact oc)
  rw [e3]
  exact this

/-! ## The theorem -/

/-- Finitely many bounds have a common one. -/
theorem common_bound {p : Nat → Nat → Prop} (hp : ∀ a F F', F ≤ F' → p a F → p a F') (n : Nat) (h : ∀ a, a < n → ∃ F, p a F) : ∃ F, ∀ a, a < n → p a F := by
  induction n with
  | zero => exact ⟨0, fun a ha => by omega⟩
  | succ n ih =>
    obtain ⟨F, hF⟩ := ih fun a ha => h a (by omega)
    obtain ⟨F', hF'⟩ := h n (by omega)
    refine ⟨max F F', fun a ha => ?_⟩
    rcases Nat.lt_or_eq_of_le (Nat.lt_succ_iff.1 ha) with g | rfl
    · exact hp a _ _ (le_max_left _ _) (hF a g)
    · exact hp a _ _ (le_max_right _ _) hF'

/-- **C102**: for seeds in general position and not nearer to each other than 2e-5, of which the inner ones have bounded Voronoi cells, `generate_3d_voronoi_mesh` ends and gives the Voronoi mesh of the inner seeds: its
vertices are exactly the Voronoi vertices of the cells of the inner seeds, each once; every face is spanned by its vertices, listed in order along its edges, and is the common face of two Voronoi cells; and every common face
of an inner cell with another cell is listed, once. -/
theorem C102_voronoi_mesh (xs : List SeedRec) (hne : xs ≠ []) (hsize : ∀ s ∈ xs, 0 ≤ s.size) (hsep : ∀ i j, i < xs.length → j < xs.length → i ≠ j → 2e-5 ≤ euclid 3 (seedPos xs i) (seedPos xs j))
    (hvc : VertexClear (seedPos xs) xs.length)
    (hcell : ∀ i s, xs[i]? = some s → s.region ≠ 0 → 1e-11 ≤ 2 * s.size ∧ ∃ M, (∀ m, m ≤ M → GeneralPos (seedPos xs) xs.length (seedPos xs i) (10 * (2 * s.size * 2 ^ (m + 1)))) ∧
      ∀ z, InVoronoi xs i z → 2 * euclid 3 z (seedPos xs i) < 2 * s.size * 2 ^ (M + 1)) :
    ∃ F, ∀ fuel' fuel, F ≤ fuel' → F ≤ fuel → ∃ mesh, voroMesh xs fuel' fuel = some (some mesh) ∧ IsVoronoiMesh xs mesh := by
  obtain ⟨T, eT, h⟩ := meshTree_spec hne (le_refl _)
  have hT : CellTree T := ⟨h.tree, h.dim⟩
  have hsepT : ∀ {a}, a < xs.length → ∀ z, z < T.P.num → z ≠ a → 2e-5 ≤ euclid 3 (T.P.pts z) (T.P.pts a) := fun {a} ha z hz hza => by
    rw [h.num] at hz
    obtain ⟨oz, sz, e1, -⟩ := oldAt_spec h hz
    obtain ⟨oa, sa, e2, -⟩ := oldAt_spec h ha
    rw [(oldAt_pos h hz e1).1, (oldAt_pos h ha e2).1]
    exact hsep oz oa (oldAt_pos h hz e1).2 (oldAt_pos h ha e2).2 fun e => hza (oldAt_inj h hz ha e1 (e ▸ e2))
  -- one fuel for all cells
  have hone : ∀ a, a < xs.length → ∃ F, ∀ o s, meshSeed T xs a = some (o, s) → s.region ≠ 0 → ∃ lc l, getCell T (ghostSeed T xs) a F F (2 * s.size) = some (some lc) ∧ oldCorners T lc = some l ∧
      ExactCell (seedPos xs) xs.length o l ∧ ExactOwner xs (newRank T xs) o l := by
    intro a ha
    obtain ⟨o, s, e1, e2, e3, e4⟩ := meshSeed_spec h ha
    by_cases hr : s.region = 0
    · refine ⟨0, fun o' s' e' hr' => ?_⟩
      rw [e2, Option.some.injEq, Prod.mk.injEq] at e'
      exact absurd (e'.2 ▸ hr) hr'
    · obtain ⟨hsz, M, hgp, hbd⟩ := hcell o s e3 hr
      have hpos : (0 : ℝ) < 2 * s.size := lt_of_lt_of_le (by norm_num) hsz
      have hpa := (oldAt_pos h ha e1).1
      obtain ⟨F, hF⟩ := C52_generic_partial T hT (ghostSeed T xs) a (by rw [h.num]; exact ha) (fun z hz => by
          by_cases e : z = a
          · left; rw [e]; exact euclid_self 3 _
          · exact Or.inr (hsepT ha z hz e)) M (2 * s.size) hsz (fun m hm => by rw [hpa]; exact (hgp m hm).toTree h) (fun z hz => by
          rw [hpa]
          refine hbd z fun y hy => ?_
          obtain ⟨b, hb, eb⟩ := oldAt_onto h hy
          rw [← hpa, ← (oldAt_pos h hb eb).1]
          exact hz b (by rw [h.num]; exact hb))
      obtain ⟨lc, hlc⟩ := hF F (M + 1) (le_refl _) (by omega)
      obtain ⟨c1, -, c3⟩ := C77_cell_graph T hT (ghostSeed T xs) a F (M + 1) (by rw [h.num]; exact ha) _ hpos.le lc hlc
      obtain ⟨l, hl, -⟩ := oldCorners_some h (lc := lc) fun q hq => by
        obtain ⟨k, hk⟩ := List.mem_iff_getElem?.1 hq
        obtain ⟨ow, d1, d2, -⟩ := c3 ((ghostSeed_false e2).2 hr) q hq
        exact ⟨fun j hj => by rw [← h.num]; exact (c1 k q j hk hj).2.2.1, ow, d1, by omega⟩
      refine ⟨max F (M + 1), fun o' s' e' hr' => ?_⟩
      rw [e2, Option.some.injEq, Prod.mk.injEq] at e'
      obtain ⟨rfl, rfl⟩ := e'
      exact ⟨lc, l, getCell_more (le_max_left _ _) _ hlc (le_max_right _ _), hl, exact_cell h ha e2 hr hpos hlc hl (fun m hm => by rw [hpa]; exact (hgp m (by omega)).toTree h) (hsepT ha) hvc⟩
  obtain ⟨F, hF⟩ := common_bound (fun a F F' hle hp o s e hr => by
    obtain ⟨lc, l, h1, h2⟩ := hp o s e hr
    exact ⟨lc, l, getCell_more hle _ h1 hle, h2⟩) xs.length hone
  obtain ⟨C, hC⟩ := meshCells_some h (f' := F) (f := F) (fun a o s ha e hr => by
    obtain ⟨lc, l, h1, h2, -⟩ := hF a ha o s e hr
    exact ⟨lc, l, h1, h2⟩) xs.length (i := 0) (fun _ => none) (by omega)
  have hCF := hC F F (le_refl _) (le_refl _)
  have hfrom := meshCells_from (i := 0) (C := fun _ => none) xs.length ⟨by simp, fun j o s hj => by omega⟩ hCF
  rw [Nat.zero_add] at hfrom
  have hex : ∀ i l, C i = some l → ExactCell (seedPos xs) xs.length i l ∧ ExactOwner xs (newRank T xs) i l := by
    intro i l hl
    obtain ⟨a, s, lc, ha, e1, e2, e3, e4⟩ := hfrom.src i l hl
    obtain ⟨lc', l', g1, g2, g3⟩ := hF a ha i s e1 e2
    rw [e3] at g1
    obtain rfl := Option.some.inj (Option.some.inj g1)
    rw [e4] at g2
    obtain rfl := Option.some.inj g2
    exact g3
  obtain ⟨F2, hF2⟩ := exact_mesh ⟨cells_ok h hsize hCF, fun i l hl => (hex i l hl).1, fun i l hl => (hex i l hl).2⟩
  refine ⟨max F F2, fun fuel' fuel hf' hf => ?_⟩
  obtain ⟨mesh, e1, e2⟩ := hF2 fuel (le_trans (le_max_right _ _) hf)
  refine ⟨mesh, ?_, e2⟩
  unfold voroMesh
  rw [eT]
  simp only
  rw [hC fuel' fuel (le_trans (le_max_left _ _) hf') (le_trans (le_max_left _ _) hf)]
  exact e1

end VoroCrust
