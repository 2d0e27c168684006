import Verif.Props.LimitMesh
import Verif.Props.CellGrid

/-!
# C105 for seeds that are not in general position
-/

namespace VoroCrust

open Classical

theorem GapPos.toTree {T : MTree} {xs : List SeedRec} (h : T.Holds xs) {x : Nat → ℝ} {B : ℝ} (hg : GapPos (seedPos xs) xs.length x B) : GapPos T.P.pts T.P.num x B := by
  have pt : ∀ {z}, z < T.P.num → ∃ o, oldAt T z = some o ∧ o < xs.length ∧ T.P.pts z = seedPos xs o ∧ oldWall T (Wall.pt z) = Wall.pt o := fun {z} hz => by
    rw [h.num] at hz
    obtain ⟨o, s, h1, -⟩ := oldAt_spec h hz
    obtain ⟨h2, h3⟩ := oldAt_pos h hz h1
    exact ⟨o, h1, h3, h2, by simp only [oldWall, h1, Option.getD_some]⟩
  have wl : ∀ {w}, SeedWall T.P.pts T.P.num x w → SeedWall (seedPos xs) xs.length x (oldWall T w) ∧ seedPl x B (seedPos xs) (oldWall T w) = seedPl x B T.P.pts w := by
    rintro w (⟨k, hk, rfl⟩ | ⟨z, rfl, hz, hzx⟩)
    · exact ⟨Or.inl ⟨k, hk, rfl⟩, rfl⟩
    · obtain ⟨o, e1, e2, e3, e4⟩ := pt hz
      rw [e4]
      exact ⟨Or.inr ⟨o, rfl, e2, by rw [← e3]; exact hzx⟩, by simp only [seedPl, e3]⟩
  intro a b c z v ha hb hc hz hzx hm
  obtain ⟨o, e1, e2, e3, e4⟩ := pt hz
  have := hg (oldWall T a) (oldWall T b) (oldWall T c) o v (wl ha).1 (wl hb).1 (wl hc).1 e2 (by rw [← e3]; exact hzx) (by rw [(wl ha).2, (wl hb).2, (wl hc).2]; exact hm)
  rw [e3]
  exact this

/-- **C102**, for seeds with any number of them as near to a vertex: if seeds are not nearer to each other than 2e-5, the cells of the inner ones are bounded, positions are exact or differ by more than the tolerances of the code,
and at most 102 seeds are nearest to one point, `generate_3d_voronoi_mesh` ends and gives the Voronoi diagram of the inner seeds: its vertices are exactly the vertices of the cells of the inner seeds, each once; its faces are
exactly the two-dimensional common faces of an inner cell and another cell, each once, spanned by its vertices, which are listed once and in order along the edges. -/
theorem C105_gap (xs : List SeedRec) (hne : xs ≠ []) (hsize : ∀ s ∈ xs, 0 ≤ s.size) (hsep : ∀ i j, i < xs.length → j < xs.length → i ≠ j → 2e-5 ≤ euclid 3 (seedPos xs i) (seedPos xs j))
    (hvc : VertexGap xs) (hfew : FewNearest xs)
    (hcell : ∀ i s, xs[i]? = some s → s.region ≠ 0 → 1e-11 ≤ 2 * s.size ∧ ∃ M, (∀ m, m ≤ M → GapPos (seedPos xs) xs.length (seedPos xs i) (10 * (2 * s.size * 2 ^ (m + 1))) ∧ SearchClear xs i (2 * s.size * 2 ^ (m + 1))) ∧
      ∀ z, InVoronoi xs i z → 2 * euclid 3 z (seedPos xs i) < 2 * s.size * 2 ^ (M + 1)) :
    ∃ F, ∀ fuel' fuel, F ≤ fuel' → F ≤ fuel → ∃ mesh, voroMesh xs fuel' fuel = some (some mesh) ∧ IsDiagramMesh xs mesh := by
  obtain ⟨T, eT, h⟩ := meshTree_spec hne (le_refl _)
  have hT : CellTree T := ⟨h.tree, h.dim⟩
  have hsepT : ∀ {a}, a < xs.length → ∀ z, z < T.P.num → z ≠ a → 2e-5 ≤ euclid 3 (T.P.pts z) (T.P.pts a) := fun {a} ha z hz hza => by
    rw [h.num] at hz
    obtain ⟨oz, sz, e1, -⟩ := oldAt_spec h hz
    obtain ⟨oa, sa, e2, -⟩ := oldAt_spec h ha
    rw [(oldAt_pos h hz e1).1, (oldAt_pos h ha e2).1]
    exact hsep oz oa (oldAt_pos h hz e1).2 (oldAt_pos h ha e2).2 fun e => hza (oldAt_inj h hz ha e1 (e ▸ e2))
  have hone : ∀ a, a < xs.length → ∃ F, ∀ o s, meshSeed T xs a = some (o, s) → s.region ≠ 0 → ∃ lc l, getCell T (ghostSeed T xs) a F F (2 * s.size) = some (some lc) ∧ oldCorners T lc = some l ∧
      LimitCell (seedPos xs) xs.length o l ∧ ExactOwner xs (newRank T xs) o l := by
    intro a ha
    obtain ⟨o, s, e1, e2, e3, e4⟩ := meshSeed_spec h ha
    by_cases hr : s.region = 0
    · refine ⟨0, fun o' s' e' hr' => ?_⟩
      rw [e2, Option.some.injEq, Prod.mk.injEq] at e'
      exact absurd (e'.2 ▸ hr) hr'
    · obtain ⟨hsz, M, hgp, hbd⟩ := hcell o s e3 hr
      have hpos : (0 : ℝ) < 2 * s.size := lt_of_lt_of_le (by norm_num) hsz
      have hpa := (oldAt_pos h ha e1).1
      obtain ⟨F, hF⟩ := C52_gap_partial T hT (ghostSeed T xs) a (by rw [h.num]; exact ha) (fun z hz => by
          by_cases e : z = a
          · left; rw [e]; exact euclid_self 3 _
          · exact Or.inr (hsepT ha z hz e)) M (2 * s.size) hsz (fun m hm => by rw [hpa]; exact (hgp m hm).1.toTree h) (fun z hz => by
          rw [hpa]
          refine hbd z fun y hy => ?_
          obtain ⟨b, hb, eb⟩ := oldAt_onto h hy
          rw [← hpa, ← (oldAt_pos h hb eb).1]
          exact hz b (by rw [h.num]; exact hb))
      obtain ⟨lc, hlc⟩ := hF F (M + 1) (le_refl _) (by omega)
      obtain ⟨c1, -, c3⟩ := C77_cell_graph T hT (ghostSeed T xs) a F (M + 1) (by rw [h.num]; exact ha) _ hpos.le lc hlc
      obtain ⟨l, hl, -⟩ := oldCorners_some h (lc := lc) fun q hq => by
        obtain ⟨k, hk⟩ := List.mem_iff_getElem?.1 hq
        obtain ⟨ow, d1, d2, -⟩ := c3 ((ghostSeed_false e2).2 hr) q hq
        exact ⟨fun j hj => by rw [← h.num]; exact (c1 k q j hk hj).2.2.1, ow, d1, by omega⟩
      refine ⟨max F (M + 1), fun o' s' e' hr' => ?_⟩
      rw [e2, Option.some.injEq, Prod.mk.injEq] at e'
      obtain ⟨rfl, rfl⟩ := e'
      exact ⟨lc, l, getCell_more (le_max_left _ _) _ hlc (le_max_right _ _), hl, gap_cell h ha e2 hr hpos hlc hl (fun m hm => by rw [hpa]; exact (hgp m (by omega)).1.toTree h) (fun m hm => (hgp m (by omega)).2) (hsepT ha) hvc⟩
  obtain ⟨F, hF⟩ := common_bound (fun a F F' hle hp o s e hr => by
    obtain ⟨lc, l, h1, h2⟩ := hp o s e hr
    exact ⟨lc, l, getCell_more hle _ h1 hle, h2⟩) xs.length hone
  obtain ⟨C, hC⟩ := meshCells_some h (f' := F) (f := F) (fun a o s ha e hr => by
    obtain ⟨lc, l, h1, h2, -⟩ := hF a ha o s e hr
    exact ⟨lc, l, h1, h2⟩) xs.length (i := 0) (fun _ => none) (by omega)
  have hCF := hC F F (le_refl _) (le_refl _)
  have hfrom := meshCells_from (i := 0) (C := fun _ => none) xs.length ⟨by simp, fun j o s hj => by omega⟩ hCF
  rw [Nat.zero_add] at hfrom
  have hex : ∀ i l, C i = some l → LimitCell (seedPos xs) xs.length i l ∧ ExactOwner xs (newRank T xs) i l := by
    intro i l hl
    obtain ⟨a, s, lc, ha, e1, e2, e3, e4⟩ := hfrom.src i l hl
    obtain ⟨lc', l', g1, g2, g3⟩ := hF a ha i s e1 e2
    rw [e3] at g1
    obtain rfl := Option.some.inj (Option.some.inj g1)
    rw [e4] at g2
    obtain rfl := Option.some.inj g2
    exact g3
  have hapart : SeedsApart (seedPos xs) xs.length := fun i j hi hj he => by
    by_contra hij
    have h1 := hsep i j hi hj hij
    rw [← sqrt_distSq3, dist_zero.2 he, Real.sqrt_zero] at h1
    norm_num at h1
  obtain ⟨F2, hF2⟩ := limit_mesh ⟨cells_ok h hsize hCF, fun i l hl => (hex i l hl).1, fun i l hl => (hex i l hl).2⟩ hapart hfew
  refine ⟨max F F2, fun fuel' fuel hf' hf => ?_⟩
  obtain ⟨mesh, e1, e2⟩ := hF2 fuel (le_trans (le_max_right _ _) hf)
  refine ⟨mesh, ?_, e2⟩
  unfold voroMesh
  rw [eT]
  simp only
  rw [hC fuel' fuel (le_trans (le_max_left _ _) hf') (le_trans (le_max_left _ _) hf)]
  exact e1

/-! ## Seeds on a grid -/

theorem unique_det {x v : Nat → ℝ} {a b c : Nat → ℤ} {sa sb sc : ℝ} (o0 : 2 * ((a 0 : ℝ) * (v 0 - x 0) + a 1 * (v 1 - x 1) + a 2 * (v 2 - x 2)) = sa) (o1 : 2 * ((b 0 : ℝ) * (v 0 - x 0) + b 1 * (v 1 - x 1) + b 2 * (v 2 - x 2)) = sb)
    (o2 : 2 * ((c 0 : ℝ) * (v 0 - x 0) + c 1 * (v 1 - x 1) + c 2 * (v 2 - x 2)) = sc)
    (hu : ∀ u : Nat → ℝ, 2 * ((a 0 : ℝ) * (u 0 - x 0) + a 1 * (u 1 - x 1) + a 2 * (u 2 - x 2)) = sa → 2 * ((b 0 : ℝ) * (u 0 - x 0) + b 1 * (u 1 - x 1) + b 2 * (u 2 - x 2)) = sb →
      2 * ((c 0 : ℝ) * (u 0 - x 0) + c 1 * (u 1 - x 1) + c 2 * (u 2 - x 2)) = sc → ∀ k, k < 3 → u k = v k) : detInt a b c ≠ 0 := by
  intro h0
  have hdet : (Matrix.of ![![(a 0 : ℝ), a 1, a 2], ![(b 0 : ℝ), b 1, b 2], ![(c 0 : ℝ), c 1, c 2]]).det = 0 := by
    rw [Matrix.det_fin_three]
    have : ((detInt a b c : ℤ) : ℝ) = 0 := by rw [h0]; simp
    unfold detInt at this
    push_cast at this
    simp
    linarith
  obtain ⟨d, hd0, hd⟩ := Matrix.exists_mulVec_eq_zero_iff.2 hdet
  have e0 := congrFun hd 0
  have e1 := congrFun hd 1
  have e2 := congrFun hd 2
  simp [Matrix.mulVec, dotProduct, Fin.sum_univ_three] at e0 e1 e2
  let u : Nat → ℝ := fun k => v k + (if k = 0 then d 0 else if k = 1 then d 1 else d 2)
  have u0 : u 0 = v 0 + d 0 := by simp [u]
  have u1 : u 1 = v 1 + d 1 := by simp [u]
  have u2 : u 2 = v 2 + d 2 := by simp [u]
  have key := hu u (by rw [u0, u1, u2]; linarith) (by rw [u0, u1, u2]; linarith) (by rw [u0, u1, u2]; linarith)
  have k0 := key 0 (by omega)
  have k1 := key 1 (by omega)
  have k2 := key 2 (by omega)
  rw [u0] at k0
  rw [u1] at k1
  rw [u2] at k2
  refine hd0 (funext fun i => ?_)
  fin_cases i
  · show d 0 = 0; linarith
  · show d 1 = 0; linarith
  · show d 2 = 0; linarith

/-- The bisector of two grid points. -/
theorem equi_int {x y z : Nat → ℝ} {g : Nat → ℤ} (hg : ∀ k, k < 3 → y k - x k = g k) : euclid 3 z x = euclid 3 z y ↔ 2 * ((g 0 : ℝ) * (z 0 - x 0) + g 1 * (z 1 - x 1) + g 2 * (z 2 - x 2)) = ((g 0 ^ 2 + g 1 ^ 2 + g 2 ^ 2 : ℤ) : ℝ) := by
  have h1 : euclid 3 z x = euclid 3 z y ↔ distSq3 z x = distSq3 z y := by
    rw [distSq3_sq, distSq3_sq]
    constructor
    · intro h; rw [h]
    · intro h
      have h2 := euclid_nonneg 3 z x
      have h3 := euclid_nonneg 3 z y
      rwa [sq_eq_sq₀ h2 h3] at h
  have e : ∀ k, k < 3 → y k = x k + g k := fun k hk => by have := hg k hk; linarith
  rw [h1]
  unfold distSq3
  rw [e 0 (by omega), e 1 (by omega), e 2 (by omega)]
  push_cast
  constructor <;> intro h <;> linarith

theorem grid_vertex_gap {xs : List SeedRec} (hgrid : ∀ i, i < xs.length → OnGrid (seedPos xs) xs.length (seedPos xs i)) (hbd : ∀ i z, InnerSeed xs i → InVoronoi xs i z → euclid 3 z (seedPos xs i) ≤ 500) : VertexGap xs := by
  intro a b c d y z ha hb hc hd hy eb ec ed hu hin
  have halt : a < xs.length := by obtain ⟨s, hs, -⟩ := ha; exact (List.getElem?_eq_some_iff.1 hs).1
  have hz := hbd a z ha hin
  obtain ⟨gb, hgb⟩ := hgrid a halt b hb
  obtain ⟨gc, hgc⟩ := hgrid a halt c hc
  obtain ⟨gd, hgd⟩ := hgrid a halt d hd
  obtain ⟨gy, hgy⟩ := hgrid a halt y hy
  have qb := fun u => equi_int (x := seedPos xs a) (z := u) fun k hk => (hgb k hk).1
  have qc := fun u => equi_int (x := seedPos xs a) (z := u) fun k hk => (hgc k hk).1
  have qd := fun u => equi_int (x := seedPos xs a) (z := u) fun k hk => (hgd k hk).1
  have hD := unique_det ((qb z).1 eb) ((qc z).1 ec) ((qd z).1 ed) fun u u0 u1 u2 => hu u ((qb u).2 u0) ((qc u).2 u1) ((qd u).2 u2)
  have hDle := detInt_le (fun k hk => (hgb k hk).2) (fun k hk => (hgc k hk).2) (fun k hk => (hgd k hk).2)
  have o0 := (qb z).1 eb
  have o1 := (qc z).1 ec
  have o2 := (qd z).1 ed
  set x := seedPos xs a with hx
  -- the difference of the squares times the determinant is an integer
  have hint : ∃ m : ℤ, (detInt gb gc gd : ℝ) * (distSq3 z x - distSq3 z (seedPos xs y)) = m := by
    refine ⟨(gb 0 ^ 2 + gb 1 ^ 2 + gb 2 ^ 2) * (gy 0 * (gc 1 * gd 2 - gc 2 * gd 1) + gy 1 * (gc 2 * gd 0 - gc 0 * gd 2) + gy 2 * (gc 0 * gd 1 - gc 1 * gd 0)) +
      (gc 0 ^ 2 + gc 1 ^ 2 + gc 2 ^ 2) * (gy 0 * (gd 1 * gb 2 - gd 2 * gb 1) + gy 1 * (gd 2 * gb 0 - gd 0 * gb 2) + gy 2 * (gd 0 * gb 1 - gd 1 * gb 0)) +
      (gd 0 ^ 2 + gd 1 ^ 2 + gd 2 ^ 2) * (gy 0 * (gb 1 * gc 2 - gb 2 * gc 1) + gy 1 * (gb 2 * gc 0 - gb 0 * gc 2) + gy 2 * (gb 0 * gc 1 - gb 1 * gc 0)) - detInt gb gc gd * (gy 0 ^ 2 + gy 1 ^ 2 + gy 2 ^ 2), ?_⟩
    have e : ∀ k, k < 3 → seedPos xs y k = x k + gy k := fun k hk => by have := (hgy k hk).1; linarith
    rw [show distSq3 z x - distSq3 z (seedPos xs y) = 2 * ((gy 0 : ℝ) * (z 0 - x 0) + gy 1 * (z 1 - x 1) + gy 2 * (z 2 - x 2)) - ((gy 0 ^ 2 + gy 1 ^ 2 + gy 2 ^ 2 : ℤ) : ℝ) by
      unfold distSq3
      rw [e 0 (by omega), e 1 (by omega), e 2 (by omega)]
      push_cast
      ring]
    unfold detInt
    push_cast at o0 o1 o2 ⊢
    linear_combination ((gy 0 : ℝ) * (gc 1 * gd 2 - gc 2 * gd 1) + gy 1 * (gc 2 * gd 0 - gc 0 * gd 2) + gy 2 * (gc 0 * gd 1 - gc 1 * gd 0)) * o0 + ((gy 0 : ℝ) * (gd 1 * gb 2 - gd 2 * gb 1) + gy 1 * (gd 2 * gb 0 - gd 0 * gb 2) + gy 2 * (gd 0 * gb 1 - gd 1 * gb 0)) * o1 +
      ((gy 0 : ℝ) * (gb 1 * gc 2 - gb 2 * gc 1) + gy 1 * (gb 2 * gc 0 - gb 0 * gc 2) + gy 2 * (gb 0 * gc 1 - gb 1 * gc 0)) * o2
  obtain ⟨m, hm⟩ := hint
  by_cases heq : euclid 3 z x = euclid 3 z (seedPos xs y)
  · exact Or.inl heq
  right
  have hle := hin y hy
  rw [← hx] at hle
  have hlt := lt_of_le_of_ne hle heq
  have hnn := euclid_nonneg 3 z x
  rw [distSq3_sq, distSq3_sq] at hm
  generalize hA : euclid 3 z x = A at *
  generalize hY : euclid 3 z (seedPos xs y) = Y at *
  have hYle : Y ≤ A + 200 := by
    have h1 := euclid_triangle 3 z x (seedPos xs y)
    have h2 : euclid 3 x (seedPos xs y) ≤ 200 := by
      rw [euclid_comm, ← sqrt_distSq3]
      refine Real.sqrt_le_iff.2 ⟨by norm_num, ?_⟩
      unfold distSq3
      have hsq : ∀ k, k < 3 → (seedPos xs y k - x k) ^ 2 ≤ 10000 := fun k hk => by
        rw [(hgy k hk).1]
        have := abs_le.1 (hgy k hk).2
        have h1 : (-100 : ℝ) ≤ gy k := by exact_mod_cast this.1
        have h2 : (gy k : ℝ) ≤ 100 := by exact_mod_cast this.2
        nlinarith
      have := hsq 0 (by omega)
      have := hsq 1 (by omega)
      have := hsq 2 (by omega)
      linarith
    rw [hA, hY] at h1
    linarith
  have hm0 : m ≠ 0 := fun q => by
    rw [q, Int.cast_zero, mul_eq_zero] at hm
    rcases hm with h | h
    · exact hD (by exact_mod_cast h)
    · nlinarith
  have h1 : (1 : ℝ) ≤ |(m : ℝ)| := by exact_mod_cast Int.one_le_abs hm0
  have hneg : A ^ 2 - Y ^ 2 < 0 := by nlinarith
  rw [← hm, abs_mul, abs_of_neg hneg] at h1
  have hD6 : |(detInt gb gc gd : ℝ)| ≤ 6000000 := by exact_mod_cast hDle
  have h2 : 1 ≤ 6000000 * (Y ^ 2 - A ^ 2) := by nlinarith
  have h3 : Y ^ 2 - A ^ 2 = (Y - A) * (Y + A) := by ring
  have h4 : (Y - A) * (Y + A) ≤ (Y - A) * 1200 := mul_le_mul_of_nonneg_left (by linarith) (by linarith)
  norm_num
  linarith

theorem few_nearest {xs : List SeedRec} (h : xs.length ≤ 102) : FewNearest xs := fun i z _ _ => (Finset.card_filter_le _ _).trans (by rw [Finset.card_range]; exact h)

/-- Integer coordinates meet the conditions of C105. -/
theorem grid_conditions {xs : List SeedRec} (hgrid : ∀ i, i < xs.length → OnGrid (seedPos xs) xs.length (seedPos xs i)) (hs : SeedsApart (seedPos xs) xs.length)
    (hcell : ∀ i s, xs[i]? = some s → s.region ≠ 0 → (∃ r : Nat, 2 * s.size = (r : ℝ)) ∧ s.size ≤ 250 ∧ ∀ z, InVoronoi xs i z → euclid 3 z (seedPos xs i) < 2 * s.size) :
    (∀ i j, i < xs.length → j < xs.length → i ≠ j → 2e-5 ≤ euclid 3 (seedPos xs i) (seedPos xs j)) ∧ VertexGap xs ∧
      ∀ i s, xs[i]? = some s → s.region ≠ 0 → 1e-11 ≤ 2 * s.size ∧ ∃ M, (∀ m, m ≤ M → GapPos (seedPos xs) xs.length (seedPos xs i) (10 * (2 * s.size * 2 ^ (m + 1))) ∧ SearchClear xs i (2 * s.size * 2 ^ (m + 1))) ∧
        ∀ z, InVoronoi xs i z → 2 * euclid 3 z (seedPos xs i) < 2 * s.size * 2 ^ (M + 1) := by
  refine ⟨fun i j hi hj hij => ?_, grid_vertex_gap hgrid fun i z hi hz => ?_, fun i s hi hr => ?_⟩
  · obtain ⟨g, h⟩ := hgrid j hj i hi
    have hsq : euclid 3 (seedPos xs i) (seedPos xs j) ^ 2 = ((g 0 ^ 2 + g 1 ^ 2 + g 2 ^ 2 : ℤ) : ℝ) := by
      rw [← distSq3_sq]
      unfold distSq3
      rw [(h 0 (by omega)).1, (h 1 (by omega)).1, (h 2 (by omega)).1]
      push_cast
      ring
    have hne0 : g 0 ^ 2 + g 1 ^ 2 + g 2 ^ 2 ≠ 0 := fun h0 => hij (hs i j hi hj fun d hd => by
      rw [h0, Int.cast_zero] at hsq
      have h1 : distSq3 (seedPos xs i) (seedPos xs j) = 0 := by rw [distSq3_sq]; exact hsq
      exact dist_zero.1 h1 d hd)
    have h1 : (1 : ℤ) ≤ g 0 ^ 2 + g 1 ^ 2 + g 2 ^ 2 := by have := sq_nonneg (g 0); have := sq_nonneg (g 1); have := sq_nonneg (g 2); omega
    have h2 : (1 : ℝ) ≤ euclid 3 (seedPos xs i) (seedPos xs j) ^ 2 := by rw [hsq]; exact_mod_cast h1
    have : (1 : ℝ) ≤ euclid 3 (seedPos xs i) (seedPos xs j) := by
      by_contra hno
      push Not at hno
      have := euclid_nonneg 3 (seedPos xs i) (seedPos xs j)
      nlinarith
    norm_num
    linarith
  · obtain ⟨s, h1, h2⟩ := hi
    obtain ⟨-, h3, h4⟩ := hcell i s h1 h2
    have := h4 z hz
    linarith
  · obtain ⟨⟨r, h1⟩, h2, h3⟩ := hcell i s hi hr
    have hilt : i < xs.length := (List.getElem?_eq_some_iff.1 hi).1
    -- the seed is in its own cell or the radius is zero
    have hr0 : 0 < r := by
      rcases Nat.eq_zero_or_pos r with rfl | g
      · exfalso
        rw [Nat.cast_zero] at h1
        have := h3 (seedPos xs i) fun y hy => by rw [euclid_self]; exact euclid_nonneg 3 _ _
        rw [euclid_self, h1] at this
        exact lt_irrefl _ this
      · exact g
    have hr1 : (1 : ℝ) ≤ r := by exact_mod_cast hr0
    refine ⟨by rw [h1]; norm_num; linarith, 0, fun m hm => ?_, fun z hz => ?_⟩
    · obtain rfl : m = 0 := by omega
      refine ⟨?_, fun _ z hz => ?_⟩
      · have := grid_gap (hgrid i hilt) ((10 * (r * 2 ^ (0 + 1)) : ℕ) : ℤ)
        push_cast at this
        rw [h1]
        norm_num at this ⊢
        exact this
      · have := h3 z hz
        norm_num
        linarith
    · have := h3 z hz
      norm_num
      linarith

/-- **C102** on a grid: for seeds at different places with integer coordinates, at most 100 from each other, with sizes of the inner ones that are multiples of one half and above half the radius of the cell, the mesh is the Voronoi diagram. -/
theorem C105_grid (xs : List SeedRec) (hne : xs ≠ []) (hsize : ∀ s ∈ xs, 0 ≤ s.size) (hgrid : ∀ i, i < xs.length → OnGrid (seedPos xs) xs.length (seedPos xs i)) (hs : SeedsApart (seedPos xs) xs.length) (hfew : FewNearest xs)
    (hcell : ∀ i s, xs[i]? = some s → s.region ≠ 0 → (∃ r : Nat, 2 * s.size = (r : ℝ)) ∧ s.size ≤ 250 ∧ ∀ z, InVoronoi xs i z → euclid 3 z (seedPos xs i) < 2 * s.size) :
    ∃ F, ∀ fuel' fuel, F ≤ fuel' → F ≤ fuel → ∃ mesh, voroMesh xs fuel' fuel = some (some mesh) ∧ IsDiagramMesh xs mesh := by
  obtain ⟨h1, h2, h3⟩ := grid_conditions hgrid hs hcell
  exact C105_gap xs hne hsize h1 h2 hfew h3

end VoroCrust
