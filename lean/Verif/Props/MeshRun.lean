import Verif.Props.CellRun
import Verif.Props.VoroMesh
import Mathlib.Data.List.Permutation

/-! # Cases of C53 and C54 -/

namespace VoroCrust.CellRun

/-! ## One cell inside four ghosts, whatever the order of the tree -/

def runOn (l : List V3) : Option (Option PolyQ) := cellLoopQ 3 (0, 0, 0) l 100 0 (initPolyQ (0, 0, 0) 2000)

def goodOut (o : Option (Option PolyQ)) : Bool := match o with | some (some P) => good P | _ => false

set_option maxRecDepth 100000 in
theorem all_good : (seeds.permutations'.all fun l => goodOut (runOn l)) = true := by decide +kernel

/-- The five seeds, the first inside. -/
noncomputable def recs : List SeedRec := [⟨cast (0, 0, 0), 50, 1⟩, ⟨cast (2, 2, 1), 50, 0⟩, ⟨cast (2, -2, -1), 50, 0⟩, ⟨cast (-2, 1, -2), 50, 0⟩, ⟨cast (-2, -1, 2), 50, 0⟩]

theorem recs_x (o : Nat) (s : SeedRec) (h : recs[o]? = some s) : s.x = cast (seeds.getD o (0, 0, 0)) ∧ o < 5 ∧ s.size = 50 ∧ (s.region ≠ 0 ↔ o = 0) := by
  have ho : o < 5 := (List.getElem?_eq_some_iff.1 h).1
  interval_cases o <;> (simp only [recs, List.getElem?_cons_zero, List.getElem?_cons_succ, Option.some.injEq] at h; subst h; simp [seeds])

theorem perm_of_nodup {l : List V3} (hl : l.Nodup) (h : ∀ y, y ∈ l ↔ y ∈ seeds) : l ∈ seeds.permutations' := by
  rw [List.mem_permutations', List.perm_ext_iff_of_nodup hl (by decide +kernel)]
  exact h

theorem sep_of {l : List V3} (h : ∀ y ∈ l, y ∈ seeds) : ∀ y ∈ l, dotDiff (cast (0, 0, 0)) (cast y) (cast y) = 0 ∨ Real.sqrt (dotDiff (cast (0, 0, 0)) (cast y) (cast y)) = ((3 : ℚ) : ℝ) := by
  have h9 : Real.sqrt 9 = 3 := by rw [show (9 : ℝ) = 3 ^ 2 by norm_num]; exact Real.sqrt_sq (by norm_num)
  intro y hy
  have hy := h y hy
  simp only [seeds, List.mem_cons, List.not_mem_nil, or_false] at hy
  rcases hy with rfl | rfl | rfl | rfl | rfl
  · left; norm_num [dotDiff, cast]
  all_goals right; norm_num [dotDiff, cast, h9]

/-- The cell of the seed inside, for any tree with these seeds. -/
theorem cell_inside {T : MTree} (hT : T.Holds recs) {i : Nat} (hi : i < 5) (hi0 : T.old i = some 0) (ghost : Nat → Bool) : ∃ l, getCell T ghost i 100 1 (2 * 50) = some (some l) ∧ l.length = 4 := by
  have hn : T.P.num = 5 := hT.num
  have hold : ∀ q, q < 5 → ∃ o, T.old q = some o ∧ o < 5 ∧ T.P.pts q = cast (seeds.getD o (0, 0, 0)) := by
    intro q hq
    obtain ⟨o, s, h1, h2, h3⟩ := hT.old q hq
    obtain ⟨h4, h5, -⟩ := recs_x o s h2
    exact ⟨o, h1, h5, h3.trans h4⟩
  have hx : T.P.pts i = cast (0, 0, 0) := by
    obtain ⟨o, h1, -, h3⟩ := hold i hi
    rw [hi0] at h1
    obtain rfl := Option.some.inj h1
    simpa [seeds] using h3
  obtain ⟨loc, e, hnd, hmem, hall⟩ := C08_in_sphere_sound_complete T.P T.ln hT.tree (fun _ => true) (T.P.pts i) (100 * 2) (by norm_num)
  have h3 : Real.sqrt 9 < 100 * 2 := (Real.sqrt_lt' (by norm_num)).2 (by norm_num)
  have hloc : ∀ q, q ∈ loc ↔ q < 5 := by
    intro q
    constructor
    · intro h; have := (hmem q h).1; rwa [hn] at this
    · intro h
      refine hall q (by rw [hn]; exact h) rfl (lt_of_le_of_lt (Real.sqrt_le_sqrt ?_) h3)
      rw [hT.dim]
      obtain ⟨o, -, ho, hp⟩ := hold q h
      rw [hp, hx]
      interval_cases o <;> norm_num [euclidSq, Finset.sum_range_succ, seeds, cast]
  have hcast : Function.Injective cast := fun a b h => by
    have h0 := congrFun h 0
    have h1 := congrFun h 1
    have h2 := congrFun h 2
    rw [cast0, cast0, Rat.cast_inj] at h0
    rw [cast1, cast1, Rat.cast_inj] at h1
    rw [cast2, cast2, Rat.cast_inj] at h2
    exact Prod.ext h0 (Prod.ext h1 h2)
  -- the seeds of the query, as triples
  let at' : Nat → V3 := fun q => seeds.getD ((T.old q).getD 0) (0, 0, 0)
  have hat : ∀ q, q < 5 → T.P.pts q = cast (at' q) := by
    intro q hq
    obtain ⟨o, h1, -, h3⟩ := hold q hq
    simp only [at', h1, Option.getD_some]
    exact h3
  have hmap : loc.map T.P.pts = (loc.map at').map cast := by
    rw [List.map_map]
    exact List.map_congr_left fun q hq => hat q ((hloc q).1 hq)
  have hseeds' : ∀ a, a < 5 → ∀ b, b < 5 → seeds.getD a (0, 0, 0) = seeds.getD b (0, 0, 0) → a = b := by decide +kernel
  have hseeds : ∀ a b, a < 5 → b < 5 → seeds.getD a (0, 0, 0) = seeds.getD b (0, 0, 0) → a = b := fun a b ha hb => hseeds' a ha b hb
  have hperm : loc.map at' ∈ seeds.permutations' := by
    refine perm_of_nodup ?_ ?_
    · refine List.Nodup.map_on ?_ hnd
      intro a ha b hb hab
      obtain ⟨oa, a1, a2, -⟩ := hold a ((hloc a).1 ha)
      obtain ⟨ob, b1, b2, -⟩ := hold b ((hloc b).1 hb)
      simp only [at', a1, b1, Option.getD_some] at hab
      have := hseeds oa ob a2 b2 hab
      subst this
      exact hT.inj a b oa ((hloc a).1 ha) ((hloc b).1 hb) a1 b1
    · intro y
      constructor
      · intro hy
        obtain ⟨q, hq, rfl⟩ := List.mem_map.1 hy
        obtain ⟨o, h1, h2, -⟩ := hold q ((hloc q).1 hq)
        simp only [at', h1, Option.getD_some]
        interval_cases o <;> simp [seeds]
      · intro hy
        obtain ⟨o, ho⟩ := List.mem_iff_getElem?.1 hy
        have ho5 : o < 5 := (List.getElem?_eq_some_iff.1 ho).1
        obtain ⟨q, hq, hqo⟩ := hT.onto o ho5
        refine List.mem_map.2 ⟨q, (hloc q).2 hq, ?_⟩
        simp only [at', hqo, Option.getD_some, List.getD_eq_getElem?_getD, ho]
  generalize loc.map at' = L at hmap hperm
  have hrun := List.all_eq_true.1 all_good L hperm
  have hsep := sep_of (l := L) fun y hy => (List.mem_permutations'.1 hperm).mem_iff.1 hy
  cases hr : runOn L with
  | none => rw [hr] at hrun; simp [goodOut] at hrun
  | some o =>
    cases o with
    | none => rw [hr] at hrun; simp [goodOut] at hrun
    | some Q =>
      rw [hr] at hrun
      obtain ⟨g1, g2, g3⟩ := good_spec hrun
      have hl : cellLoop (cast (0, 0, 0)) (L.map cast) 100 0 (initPoly (cast (0, 0, 0)) (10 * (100 * 2))) = some (some Q.toPoly) := by
        have := cellLoop_cast hsep 100 0 (initPolyQ (0, 0, 0) 2000)
        rw [← initPoly_cast] at this
        rw [show (10 * (100 * 2) : ℝ) = ((2000 : ℚ) : ℝ) by norm_num, this, show cellLoopQ 3 (0, 0, 0) L 100 0 (initPolyQ (0, 0, 0) 2000) = runOn L from rfl, hr]
        rfl
      have hacc : 2 * Real.sqrt (farthestSq (cast (0, 0, 0)) Q.toPoly Q.toPoly.num) < 100 * 2 + 1e-10 := good_accepted g1 g3
      have hwf : Q.toPoly.WF := by
        rcases cellLoop_spec 100 (initPoly_wf (cast (0, 0, 0)) (10 * (100 * 2))) (x := cast (0, 0, 0)) (loc := L.map cast) (c := 0) (fun a ha => by omega) with g | ⟨R, g, gw, -⟩
        · rw [hl] at g; simp at g
        · rw [hl] at g
          obtain rfl := Option.some.inj (Option.some.inj g)
          exact gw
      have hwl := cellLoop_walls 100 (initPoly_walls (cast (0, 0, 0)) (10 * (100 * 2)) (L.map cast)) hl
      cases hres : resultCorners ghost T.P.pts (cast (0, 0, 0)) loc Q.toPoly Q.toPoly.num 0 with
      | none =>
        obtain ⟨a, i, b, hi, ha, hb⟩ := resultCorners_none hwf (by rw [hmap]; exact hwl) _ hres
        obtain ⟨v, hv⟩ := Option.ne_none_iff_exists'.1 ha
        obtain ⟨w, hw, -⟩ := Option.map_eq_some_iff.1 hv
        obtain ⟨j, hj⟩ := (g3 a w (g1 ▸ hwf.fin a ha) hw).2 i hi
        rw [show Q.toPoly.wall a i = Q.wall a i from rfl, hj] at hb
        simp at hb
      | some l =>
        refine ⟨l, ?_, ?_⟩
        · unfold getCell
          rw [show (2 * 50 * 2 : ℝ) = 100 * 2 by norm_num, e]
          cases loc with
          | nil => exact absurd ((hloc 0).2 (by norm_num)) (by simp)
          | cons q0 qs =>
            simp only
            rw [hmap, hx, hl]
            simp only
            rw [if_pos hacc, hres]
            rfl
        · have := (resultCorners_get _ hres).2
          rw [Nat.zero_add, show Q.toPoly.rank 0 = 0 from rfl, Nat.zero_add] at this
          rw [← this, show Q.toPoly.num = 27 from g1]
          refine Eq.trans ?_ g2
          unfold Poly.rank
          congr 1
          funext c
          simp [PolyQ.toPoly]

/-- C53, C54: the five seeds have a tree, and their one cell inside is built, with four corners. -/
theorem case_cells : ∃ T C l, meshTree recs.length recs = some T ∧ (∀ s ∈ recs, 0 ≤ s.size) ∧ meshCells T recs 100 1 recs.length 0 (fun _ => none) = some (some C) ∧ C 0 = some l ∧ l.length = 4 := by
  obtain ⟨T, eT, hT⟩ := meshTree_spec (xs := recs) (by simp [recs]) (le_refl _)
  have hsz : ∀ s ∈ recs, 0 ≤ s.size := fun s hs => by
    obtain ⟨o, ho⟩ := List.mem_iff_getElem?.1 hs
    rw [(recs_x o s ho).2.2.1]
    norm_num
  have hlen : recs.length = 5 := rfl
  -- the loop, once the cell inside is passed and before
  have key : ∀ k i (C : Cells), i + k = 5 → ∃ R, meshCells T recs 100 1 k i C = some (some R) ∧ ((∃ l, C 0 = some l ∧ l.length = 4) ∨ (∃ a, i ≤ a ∧ a < 5 ∧ T.old a = some 0) → ∃ l, R 0 = some l ∧ l.length = 4) := by
    intro k
    induction k with
    | zero =>
      intro i C hk
      refine ⟨C, rfl, ?_⟩
      rintro (h | ⟨a, h1, h2, -⟩)
      · exact h
      · omega
    | succ k ih =>
      intro i C hk
      obtain ⟨o, s, h1, h2, h3, h4⟩ := meshSeed_spec hT (i := i) (by rw [hlen]; omega)
      obtain ⟨-, ho, hs50, hreg⟩ := recs_x o s h3
      have hoT : T.old i = some o := by
        unfold oldAt at h1
        split_ifs at h1
        exact h1
      unfold meshCells
      rw [h2]
      simp only
      split_ifs with hr
      · obtain ⟨R, e, hR⟩ := ih (i + 1) C (by omega)
        refine ⟨R, e, fun h => hR ?_⟩
        rcases h with h | ⟨a, a1, a2, a3⟩
        · exact Or.inl h
        · refine Or.inr ⟨a, ?_, a2, a3⟩
          rcases Nat.lt_or_eq_of_le a1 with g | rfl
          · exact g
          · rw [hoT] at a3
            exact absurd hr (hreg.2 (Option.some.inj a3))
      · obtain rfl := hreg.1 hr
        obtain ⟨l, el, hl4⟩ := cell_inside hT (by omega) hoT (ghostSeed T recs)
        rw [hs50, el]
        simp only [andThen]
        obtain ⟨c1, c2, c3⟩ := C77_cell_graph T ⟨hT.tree, hT.dim⟩ (ghostSeed T recs) i 100 1 (by rw [hT.num, hlen]; omega) (2 * 50) (by norm_num) l el
        have hold : ∃ m, oldCorners T l = some m ∧ m.length = l.length := by
          refine oldCorners_some hT (fun q hq => ?_)
          obtain ⟨a, ha⟩ := List.mem_iff_getElem?.1 hq
          obtain ⟨o1, d1, d2, -⟩ := c3 ((ghostSeed_false h2).2 hr) q hq
          refine ⟨fun j hj => ?_, o1, d1, by rw [hlen]; omega⟩
          have := (c1 a q j ha hj).2.2.1
          rwa [hT.num] at this
        obtain ⟨m, em, hm⟩ := hold
        rw [em]
        obtain ⟨R, e, hR⟩ := ih (i + 1) (upd C 0 (some m)) (by omega)
        exact ⟨R, e, fun _ => hR (Or.inl ⟨m, by simp [upd], by omega⟩)⟩
  obtain ⟨R, e, hR⟩ := key 5 0 (fun _ => none) rfl
  obtain ⟨a, ha, ha0⟩ := hT.onto 0 (by rw [hlen]; omega)
  obtain ⟨l, h1, h2⟩ := hR (Or.inr ⟨a, by omega, ha, ha0⟩)
  exact ⟨T, R, l, eT, hsz, e, h1, h2⟩

/-! ## A tetrahedron with its faces -/

/-- A corner of the tetrahedron: three coordinates, neighbours and seeds. -/
noncomputable def tetraCorner (v : V3) (a b c : Nat) (s t u : Nat) : MeshCorner := ⟨cast v, triple a b c, triple s t u, 0⟩

/-- The cell of seed 0 between the ghosts 1 to 4; corner `c` is opposite to the face towards seed `c + 1`. -/
noncomputable def tetraCell : List MeshCorner :=
  [tetraCorner (-3, -3, -3) 3 1 2 2 3 4, tetraCorner (3, 3, -3) 2 3 0 1 3 4, tetraCorner (3, -3, 3) 3 0 1 1 2 4, tetraCorner (-3, 3, 3) 1 2 0 1 2 3]

noncomputable def tetraCells : Cells := fun i => if i = 0 then some tetraCell else none

theorem tetra_ok : CellsOK recs tetraCells id := by
  have hC : ∀ i l, tetraCells i = some l → i = 0 ∧ l = tetraCell := by
    intro i l h
    unfold tetraCells at h
    split_ifs at h with h0
    exact ⟨h0, (Option.some.inj h).symm⟩
  refine ⟨?_, ?_, ?_, ?_, ?_, ?_⟩
  · intro i l h
    obtain ⟨rfl, rfl⟩ := hC i l h
    exact ⟨_, rfl, by simp⟩
  · intro i s hs hr
    obtain rfl := (recs_x i s hs).2.2.2.1 hr
    exact ⟨_, rfl⟩
  · intro i l q j h hq hj
    obtain ⟨rfl, rfl⟩ := hC i l h
    simp only [tetraCell, List.mem_cons, List.not_mem_nil, or_false] at hq
    rcases hq with rfl | rfl | rfl | rfl <;> interval_cases j <;> simp [tetraCorner, triple, tetraCell, recs]
  · intro i l q h hq
    obtain ⟨rfl, rfl⟩ := hC i l h
    simp only [tetraCell, List.mem_cons, List.not_mem_nil, or_false] at hq
    rcases hq with rfl | rfl | rfl | rfl <;> exact ⟨_, rfl, le_refl _⟩
  · intro i j _ _ h; exact h
  · intro i h; exact h

def tetraCyc (t : Nat) : Nat := if t = 1 then 2 else if t = 2 then 3 else 1

/-- The corners 1, 2, 3 go around the face towards seed 1. -/
theorem tetra_cycle : FaceCycle tetraCells 0 1 3 tetraCyc := by
  have h0 : tetraCells 0 = some tetraCell := rfl
  refine ⟨?_, ?_, ?_, rfl⟩
  · intro c q j hc hq hj
    have hc : c < 1 := hc
    obtain ⟨l, hl, hlq⟩ := cornerAt_eq.1 hq
    rw [h0] at hl
    obtain rfl := Option.some.inj hl
    interval_cases c
    simp only [tetraCell, List.getElem?_cons_zero, Option.some.injEq] at hlq
    subst hlq
    interval_cases j <;> simp [tetraCorner, triple]
  · intro t ht
    interval_cases t
    · exact ⟨_, 0, cornerAt_eq.2 ⟨_, h0, rfl⟩, by norm_num, rfl, fun j' hj' => by omega, rfl⟩
    · exact ⟨_, 0, cornerAt_eq.2 ⟨_, h0, rfl⟩, by norm_num, rfl, fun j' hj' => by omega, rfl⟩
    · exact ⟨_, 0, cornerAt_eq.2 ⟨_, h0, rfl⟩, by norm_num, rfl, fun j' hj' => by omega, rfl⟩
  · intro t h1 h2
    interval_cases t <;> simp [tetraCyc]

/-- C54: the hypotheses of `C54_face_listed` hold for it. -/
theorem case_face : ∃ f W M v, weldCorners tetraCells recs.length f = some (some W) ∧ meshOfCells recs tetraCells f = some (some M) ∧ 3 ≤ f ∧ (∀ t, t < 3 → W.vertexOf 0 (tetraCyc t) = some (v t)) ∧
    (∀ t t', t < 3 → t' < 3 → v t = v t' → t = t') ∧ ∃ k, k < M.nf ∧ M.faces k = some ⟨(List.range 3).map v, 0, 1⟩ := by
  obtain ⟨F, hF⟩ := mesh_ok tetra_ok
  obtain ⟨W, eW, hW, M, eM, -⟩ := hF (max F 3) (le_max_left _ _)
  have h0 : tetraCells 0 = some tetraCell := rfl
  have hdist : ∀ c q k q', c < 4 → k < c → tetraCell[c]? = some q → tetraCell[k]? = some q' → euclid 3 q'.x q.x ≠ 0 := by
    intro c q k q' hc hk hq hq' he
    rw [← sqrt_distSq3] at he
    have hpos : 0 < distSq3 q'.x q.x := by
      interval_cases c <;> interval_cases k <;>
        (simp only [tetraCell, List.getElem?_cons_zero, List.getElem?_cons_succ, Option.some.injEq] at hq hq'; subst hq; subst hq'; norm_num [distSq3, tetraCorner, cast])
    exact absurd he (ne_of_gt (Real.sqrt_pos.2 hpos))
  have hv : ∀ c, c < 4 → ∃ v, W.vertexOf 0 c = some v ∧ W.num 0 c = some v := by
    intro c hc
    have hq : tetraCell[c]? = some tetraCell[c] := List.getElem?_eq_getElem hc
    have hst := (hW.stays 0 c _ (cornerAt_eq.2 ⟨_, h0, hq⟩)).2 (Or.inr ⟨by interval_cases c <;> rfl, fun k q' hk hq' => ?_⟩)
    · obtain ⟨s, k, v, e1, -, -, e4, -⟩ := hW.resolved 0 c (isSlot_iff.2 ⟨_, h0, hc⟩)
      rw [hst, Option.some.injEq, Prod.mk.injEq] at e1
      obtain ⟨rfl, rfl⟩ := e1
      exact ⟨v, by unfold Welded.vertexOf; rw [hst]; exact e4, e4⟩
    · obtain ⟨l, hl, hlq⟩ := cornerAt_eq.1 hq'
      rw [h0] at hl
      obtain rfl := Option.some.inj hl
      exact hdist c _ k q' hc hk hq hlq
  choose! v hv1 hv2 using hv
  have hlt : ∀ t, t < 3 → tetraCyc t < 4 := by decide
  have hinj : ∀ t t', t < 3 → t' < 3 → v (tetraCyc t) = v (tetraCyc t') → t = t' := by
    intro t t' ht ht' e
    have h1 := hv2 _ (hlt t ht)
    have h2 := hv2 _ (hlt t' ht')
    rw [← e] at h2
    have := (hW.once _ _ _ _ _ h1 h2).2
    interval_cases t <;> interval_cases t' <;> simp_all [tetraCyc]
  refine ⟨max F 3, W, M, fun t => v (tetraCyc t), eW, eM, le_max_right _ _, fun t ht => hv1 _ (hlt t ht), hinj, ?_⟩
  exact C54_face_listed recs tetraCells _ W eW M eM 0 1 3 (by simp [recs]) (by norm_num) (le_max_right _ _) _ rfl (Or.inl rfl) tetraCyc (fun t => v (tetraCyc t)) tetra_cycle (fun t ht => hv1 _ (hlt t ht)) hinj

end VoroCrust.CellRun
