import Verif.Props.ExecuteCases

/-! # C93: a model whose sampling returns -/

namespace VoroCrust

/-! ## Surface spheres when the first one covers everything -/

/-- The first dart with random numbers zero is the third corner of its face. -/
theorem dart_corner {S : PoolSurface (Nat → ℝ)} (hS : S.Valid 3) {pool : List (PoolEntry ℝ)} (hne : pool ≠ []) (hd : Decodes S 0 pool) (cdf : Nat → ℝ) (u : ℝ) (us : Nat → ℝ)
    (e1 : us 1 = 0) (e2 : us 2 = 0) :
    ∃ x f, sampleActiveFace S 0 pool cdf u us = some (x, f) ∧ f < S.numFaces ∧ ∀ d, x d = S.point (S.corner f 2) d := by
  obtain ⟨i, ei, hi⟩ := C35_search_in_range pool.length (List.length_pos_iff.2 hne) (fun i => realLt u (cdf i)) (fun i => realLt (cdf i) u) pool.length le_rfl
  obtain ⟨k, hk⟩ := hd _ (List.getElem_mem hi)
  have hp := (faceCorners_inside S 0 _ k hk).1
  have hk2 : k.c2 = S.point (S.corner pool[i].parent 2) := by
    have hat : ∀ j, j < 3 → S.at pool[i].parent j = some (S.point (S.corner pool[i].parent j)) := fun j hj => by
      unfold PoolSurface.at; rw [if_pos ⟨hp, hS _ hp j hj⟩]
    unfold faceCorners at hk
    rw [hat 0 (by omega), hat 1 (by omega), hat 2 (by omega)] at hk
    have := Option.some.inj (show some _ = some k from hk)
    rw [← this]
    rfl
  obtain ⟨p, ep, hp'⟩ := C37_simplex_reaches 3 (by norm_num) (fun j => if j = 0 then k.c0 else if j = 1 then k.c1 else k.c2)
    (fun i => if i = 2 then 1 else 0) (fun i hi => by split_ifs <;> norm_num) (by simp [Finset.sum_range_succ]) us 1 (fun k _ => rfl)
    (fun k hk hk3 => by
      have : k = 1 ∨ k = 2 := by omega
      rcases this with rfl | rfl
      · simp [e1]
      · simp [Finset.sum_range_succ, e2])
  refine ⟨p, pool[i].parent, ?_, hp, fun d => ?_⟩
  · unfold sampleActiveFace
    rw [ei]
    simp only [List.getElem?_eq_getElem hi, hk, ep]
  · rw [hp', ← hk2]
    simp [Finset.sum_range_succ]

/-- One sphere has no seeds. -/
theorem seeds_single {Z : SphereSet} (hP : SphereTree Z.S Z.lnS) (h1 : Z.S.num = 1) (he : Z.E.num = 0) (hc : Z.C.num = 0) {L : ℝ} (hL0 : 0 ≤ L) (hL1 : L < 1) (env : SeedEnv) :
    surfaceSeeds Z L env = some (Z.S, false, SeedTree.empty, SeedTree.empty) := by
  obtain ⟨l, el, -, hl, -⟩ := C28_overlapping_spheres Z.S Z.lnS hP L hL0 hL1 (Z.S.pts 0) (Z.S.pts 0 3) (hP.nonneg 0 (by omega))
  have hnear : nearSpheres Z L 0 = some l := by
    unfold nearSpheres
    rw [el, show overlappingSpheres Z.E Z.lnE L (Z.S.pts 0) (Z.S.pts 0 3) = some [] from if_pos he, show overlappingSpheres Z.C Z.lnC L (Z.S.pts 0) (Z.S.pts 0 3) = some [] from if_pos hc]
    simp only [List.map_nil, List.append_nil]
  have ht : seedTriples Z 0 l = [] := by
    unfold seedTriples
    rw [List.flatMap_eq_nil_iff]
    intro j hj
    have := (hl j hj).1
    rw [if_pos (by omega)]
  unfold surfaceSeeds
  simp only [h1, show List.range 1 = [0] from rfl, seedSphereLoop, hnear, ht, seedTripleLoop]
  rfl

/-- Without corner and edge spheres, one thread and a first sphere around all points, the sampling of the surface returns this sphere. -/
theorem first_returns {E : SurfSetup} (hE : E.Ok) (hT : E.T = 1) (htol : E.tol ≤ 0) (he : E.edge.store.num = 0) (hc : E.corner.store.num = 0) (hU : ∀ k, E.U 0 k = 0)
    (hrad : ∀ f x, f < E.S.numFaces → (∀ d, x d = E.S.point (E.S.corner f 2) d) → ∃ ρ, surfRadius E surfStart 0 x f = some ρ ∧ 0 ≤ ρ ∧
      ∀ v, v < E.S.numPoints → euclid 3 (E.S.point v) x < Real.sqrt (1 - E.ratio ^ 2) * ρ) (mps fuel : Nat) (hm : 101 ≤ mps) :
    ∃ r, surfaceSpheres E mps (fuel + 1) = some (some (r, SeedTree.empty, SeedTree.empty)) ∧ r.tree.num = 1 := by
  obtain ⟨ps, eps, hps, hall⟩ := patches_all E.S.numFaces hE.some_face
  obtain ⟨q, hq, -⟩ := hall 0 hE.some_face
  obtain ⟨p0, ps, rfl⟩ : ∃ p0 ps', ps = p0 :: ps' := by
    cases ps with
    | nil => simp at hq
    | cons a b => exact ⟨a, b, rfl⟩
  obtain ⟨hpn, hpf⟩ := hps p0 (by simp)
  obtain ⟨pool, ep, dp, qp⟩ := initialPool_spec area3 E.S hE.valid p0.2 hpf
  have hne : pool ≠ [] := by
    rintro rfl
    obtain ⟨f, hf⟩ := List.exists_mem_of_ne_nil _ hpn
    obtain ⟨e, he, -⟩ := qp f hf _ ⟨1, 0, 0, by norm_num, le_rfl, le_rfl, by norm_num, fun d => rfl⟩
    simp at he
  obtain ⟨x, f, ex, hf, hx⟩ := dart_corner hE.valid hne dp (poolTable pool) (E.U 0 (3 * 0)) (fun k => E.U 0 (3 * 0 + k)) (hU _) (hU _)
  obtain ⟨ρ, hρ, hρ0, hcov⟩ := hrad f x hf hx
  obtain ⟨t, et, ht, hcap, hnum, hold, hnew⟩ := SmartTree.add_sphere (surfRunOk_empty E).wf (surfRunOk_empty E).cap E.rb (upd x 3 ρ) (by simpa [upd] using hρ0)
  have hnum : t.num = 1 := hnum
  set r1 : SurfRun := ⟨t, [f], upd (fun _ => none) 0 (some ρ), 1, 0⟩ with hr1
  have hunc : surfCovered E surfStart x = some false := by
    unfold surfCovered
    rw [show pointCovered E.corner.store E.corner.links E.L 0 x = some false from if_pos hc, show pointCovered E.edge.store E.edge.links E.L 0 x = some false from if_pos he]
    exact if_pos rfl
  have hround : surfRound E 0 pool surfStart 0 = some (r1, 0) := by
    have hd : drawDarts E 0 pool surfStart 1 = some [⟨x, f, false⟩] := by
      rw [drawDarts, drawDarts]
      simp only [surfStart]
      rw [ex]
      simp only
      rw [show surfCovered E ⟨SmartTree.empty (fun _ _ => 0) id id, [], fun _ => none, 0, 0⟩ x = some false from hunc]
      rfl
    unfold surfRound
    rw [hT, hd]
    simp only [sizeDarts, Bool.false_eq_true, if_false, hitBy, List.any_nil, List.length_nil, hρ, List.nil_append]
    simp only [addDarts, Bool.false_eq_true, if_false]
    rw [show addTreePoint realLt 3 E.rb surfStart.tree (upd x 3 ρ) = some t from et]
    rfl
  have hok : SurfRunOk E r1 := by
    rcases surfRound_spec hE (show SurfRunOk E surfStart from surfRunOk_empty E) 0 hne dp 0 with ⟨h, -⟩ | ⟨q, h, h', -⟩
    · rw [hround] at h; simp at h
    · rw [hround] at h
      rw [← Option.some.inj h] at h'
      exact h'
  have hst : SphereTree t.spheres t.links := hok.wf.resolve_left (by show t.num ≠ 0; omega)
  have hin : ∀ c, FacesIn E { r1 with calls := c } := fun c => by
    refine ⟨fun i j hi => absurd hi (by omega), fun i j hi => absurd hi (by omega), lip_one hnum _, fun g hg => .inl ⟨0, by show 0 < t.num; omega, fun X hX => ?_⟩⟩
    show euclid 3 X (t.pts 0) < Real.sqrt (1 - E.ratio ^ 2) * t.pts 0 3
    have h3 : t.pts 0 3 = ρ := by rw [show t.pts 0 = upd x 3 ρ from hnew]; simp [upd]
    have hd : ∀ Y, euclid 3 Y (t.pts 0) = euclid 3 Y x := fun Y => by
      rw [show t.pts 0 = upd x 3 ρ from hnew]
      exact euclid_congr (fun _ _ => rfl) fun d hd => by simp [upd, show d ≠ 3 by omega]
    rw [h3, hd]
    rcases hX with rfl | rfl | rfl
    exacts [hcov _ (hE.valid g hg 0 (by omega)), hcov _ (hE.valid g hg 1 (by omega)), hcov _ (hE.valid g hg 2 (by omega))]
  obtain ⟨c, hmps⟩ := surfMps_covered hE hne dp 100 (mps - 101) 0 r1 hok.wf (hin 1) (by norm_num) (by norm_num)
  obtain ⟨c', hrest⟩ := surfPatches_covered hE mps (by omega) ps (fun p hp => hps p (by simp [hp])) { r1 with calls := c } hok.wf (hin c)
  have hpat : surfPatches E mps (p0 :: ps) surfStart = some (some { r1 with calls := c' }) := by
    rw [surfPatches]
    simp only [ep]
    rw [show mps = 100 + (mps - 101) + 1 by omega, surfMps, hround]
    simp only
    rw [if_neg (by omega), hmps]
    rw [show 100 + (mps - 101) + 1 = mps by omega]
    exact hrest
  obtain ⟨Q, eQ, hQ⟩ := C27_isolated_unchanged E.L hE.L0 t.spheres t.links hst t.num le_rfl (fun i j hi hj hij => by
    have hi : i < t.num := hi
    have hj : j < t.num := hj
    omega)
  obtain ⟨P, sh, eP, hsb, hP, -⟩ := C27_lipschitz_tree_partial E.L hE.L0 t.spheres t.links hst t.num le_rfl false
  obtain ⟨rfl, rfl⟩ : P = Q ∧ sh = false := by rw [eP] at eQ; simpa using eQ
  have hPn : P.num = 1 := hsb.num.trans hnum
  have hfin : surfFinish E { r1 with calls := c' } = some ({ r1 with calls := c', seedings := 1 }.withPts P, some (SeedTree.empty, SeedTree.empty)) := by
    unfold surfFinish
    rw [show lipTree ({ r1 with calls := c' } : SurfRun).tree.links E.L ({ r1 with calls := c' } : SurfRun).tree.num ({ r1 with calls := c' } : SurfRun).tree.spheres false = some (P, false) from eP]
    simp only
    rw [seeds_single (Z := E.spheres P r1.tree.links) hP hPn he hc hE.L0 hE.L1 _]
    simp only
    have hv : ∀ n ns (rr : Nat → ℝ), validateSurface n ns (sphereTriples SeedTree.empty) rr = some ⟨true, rr⟩ := fun n ns rr => rfl
    rw [hv]
    simp only [if_true, SurfSetup.spheres]
    rw [setRadii_self P (fun q => P.pts q 3) P.num fun i _ => (hP.radius i).symm]
  have hchk : surfCheck E { r1 with calls := c' } = some ({ r1 with calls := c', seedings := 1 }.withPts P, some (SeedTree.empty, SeedTree.empty)) := by
    unfold surfCheck
    rw [if_neg (by linarith)]
    exact hfin
  refine ⟨{ r1 with calls := c', seedings := 1 }.withPts P, ?_, hnum⟩
  rw [surfaceSpheres, surfLoop, eps]
  simp only
  rw [show surfPatches E mps (p0 :: ps) ⟨SmartTree.empty (fun _ _ => 0) id id, [], fun _ => none, 0, 0⟩ = _ from hpat]
  simp only
  rw [hchk]

/-! ## An octahedron -/

/-- The corners of an octahedron. -/
noncomputable def octPoint (i : Nat) : Nat → ℝ :=
  if i = 0 then mkSphere 1 0 0 0 else if i = 1 then mkSphere 0 1 0 0 else if i = 2 then mkSphere 0 0 1 0
  else if i = 3 then mkSphere (-1) 0 0 0 else if i = 4 then mkSphere 0 (-1) 0 0 else mkSphere 0 0 (-1) 0

/-- Its faces. -/
def octFaces : List (List Nat) := [[0, 1, 2], [1, 3, 2], [3, 4, 2], [4, 0, 2], [1, 0, 5], [3, 1, 5], [4, 3, 5], [0, 4, 5]]

/-- The signs of the points of face `f`. -/
def octSign (f d : Nat) : Int := if d = 0 then (if f % 4 = 0 ∨ f % 4 = 3 then 1 else -1) else if d = 1 then (if f % 4 < 2 then 1 else -1) else if f < 4 then 1 else -1

/-- The octahedron with a threshold angle of 90 degrees. -/
noncomputable def octInput : VcInput := plainInput 6 octPoint octFaces 0

theorem octInput_ok : octInput.Ok := plainInput_ok (by unfold TriMesh; decide) (by unfold SimpleFaces; decide) (by decide) (by norm_num) (by norm_num)

theorem oct_area (f : Nat) (hf : f < 8) (d : Fin 3) : areaVec (octInput.tri f) d = ((octSign f d.val : Int) : ℝ) := by
  obtain ⟨e0, e1, e2⟩ := tri_area octInput f (a := octPoint ((octFaces.getD f []).getD 0 0)) (b := octPoint ((octFaces.getD f []).getD 1 0)) (c := octPoint ((octFaces.getD f []).getD 2 0)) rfl rfl rfl
  fin_cases d
  · refine e0.trans ?_
    interval_cases f <;> norm_num [octPoint, octFaces, mkSphere, octSign]
  · refine e1.trans ?_
    interval_cases f <;> norm_num [octPoint, octFaces, mkSphere, octSign]
  · refine e2.trans ?_
    interval_cases f <;> norm_num [octPoint, octFaces, mkSphere, octSign]

theorem octSign_sq (f d : Nat) : ((octSign f d : Int) : ℝ) * ((octSign f d : Int) : ℝ) = 1 := by
  unfold octSign; split_ifs <;> norm_num

theorem octSign_abs (f d : Nat) : |((octSign f d : Int) : ℝ)| = 1 := by
  unfold octSign; split_ifs <;> norm_num

theorem oct_in (p : Nat) (d : Nat) : |octPoint p d| ≤ 1 := by
  unfold octPoint
  split_ifs
  all_goals
    unfold mkSphere
    split_ifs <;> norm_num

theorem oct_l1 (p : Nat) : |octPoint p 0| + |octPoint p 1| + |octPoint p 2| = 1 := by
  unfold octPoint
  split_ifs
  all_goals norm_num [mkSphere]

theorem oct_normal (f : Nat) (hf : f < 8) : ∃ κ : ℝ, κ ^ 2 * 3 = 1 ∧ ∀ d : Fin 3, (triNormal (octInput.tri f)).1 d = κ * ((octSign f d.val : Int) : ℝ) := by
  obtain ⟨-, uf, -, k, hk, ek⟩ := (triNormal_spec (octInput.tri f)).resolve_right (by
    rw [triNormal_big (octInput.tri f) (fun k d => (oct_in _ _).trans (by norm_num)) ⟨0, by rw [oct_area f hf, octSign_abs]⟩]; simp)
  refine ⟨k, ?_, fun d => by rw [ek, oct_area f hf]⟩
  rw [show (triNormal (octInput.tri f)).1 = fun d => k * areaVec (octInput.tri f) d from funext ek, dot3_smul_smul] at uf
  rw [← uf]
  congr 1
  unfold dot3
  rw [oct_area f hf, oct_area f hf, oct_area f hf, octSign_sq, octSign_sq, octSign_sq]
  norm_num

theorem oct_adjacent : ∀ a < 6, ∀ b < 6, ∀ f < 8, ∀ g < 8, facesWith octFaces a b = [f, g] → 0 ≤ octSign f 0 * octSign g 0 + octSign f 1 * octSign g 1 + octSign f 2 * octSign g 2 := by
  decide +kernel

theorem oct_no_edges {D : Detected} (hD : DetectedOk octInput 100000 500000 D) : D.edges = [] := by
  have hsame : sharpEdges octInput.num octInput.faces (dihedralSharp octInput.th fun f => octInput.normals.getD f fun _ => 0) = sharpEdges 6 octFaces fun _ _ => false := by
    refine sharpEdges_congr octInput_ok.mesh octInput_ok.simple fun a b f g ha hb hf => ?_
    have hlf : f < 8 := facesWith_lt (faces := octInput.faces) (a := a) (b := b) (by rw [hf]; simp)
    have hlg : g < 8 := facesWith_lt (faces := octInput.faces) (a := a) (b := b) (by rw [hf]; simp)
    refine not_dihedral hlf hlg (fun k d => (oct_in _ _).trans (by norm_num)) (fun k d => (oct_in _ _).trans (by norm_num)) ⟨0, by rw [oct_area f hlf, octSign_abs]⟩
      ⟨0, by rw [oct_area g hlg, octSign_abs]⟩ ?_ ?_
    · rw [show octInput.th = 0 from rfl]
      nlinarith [sq_nonneg (dot3 (areaVec (octInput.tri f)) (areaVec (octInput.tri g)))]
    · have := oct_adjacent a ha b hb f hlf g hlg hf
      unfold dot3
      rw [oct_area f hlf, oct_area f hlf, oct_area f hlf, oct_area g hlg, oct_area g hlg, oct_area g hlg]
      exact_mod_cast this
  exact Option.some.inj ((hsame ▸ hD.sharp).symm.trans (by rfl))

theorem oct_axis (v : Nat) : (|octPoint v 0| = 1 ∧ octPoint v 1 = 0 ∧ octPoint v 2 = 0) ∨ (|octPoint v 1| = 1 ∧ octPoint v 0 = 0 ∧ octPoint v 2 = 0) ∨
    (|octPoint v 2| = 1 ∧ octPoint v 0 = 0 ∧ octPoint v 1 = 0) := by
  unfold octPoint
  split_ifs <;> norm_num [mkSphere]

/-- No line from a corner in the direction of a normal meets the octahedron again. -/
theorem oct_line (v f : Nat) (t : ℝ) (h : |octPoint v 0 - t * ((octSign f 0 : Int) : ℝ)| + |octPoint v 1 - t * ((octSign f 1 : Int) : ℝ)| + |octPoint v 2 - t * ((octSign f 2 : Int) : ℝ)| ≤ 1) :
    t = 0 := by
  have ht : ∀ d, |t * ((octSign f d : Int) : ℝ)| = |t| := fun d => by rw [abs_mul, octSign_abs, mul_one]
  have h0 := ht 0
  have h1 := ht 1
  have h2 := ht 2
  have key : ∀ a b : ℝ, |a| - |b| ≤ |a - b| := fun a b => abs_sub_abs_le_abs_sub a b
  have hone : 1 + |t| ≤ 1 := by
    refine le_trans ?_ h
    have zero : ∀ b : ℝ, |0 - b| = |b| := fun b => by rw [zero_sub, abs_neg]
    rcases oct_axis v with ⟨a, b, c⟩ | ⟨a, b, c⟩ | ⟨a, b, c⟩
    · have := key (octPoint v 0) (t * ((octSign f 0 : Int) : ℝ))
      rw [b, c, zero, zero]; linarith
    · have := key (octPoint v 1) (t * ((octSign f 1 : Int) : ℝ))
      rw [b, c, zero, zero]; linarith
    · have := key (octPoint v 2) (t * ((octSign f 2 : Int) : ℝ))
      rw [b, c, zero, zero]; linarith
  exact abs_eq_zero.1 (le_antisymm (by linarith) (abs_nonneg t))

theorem oct_near (v f : Nat) (hf : f < 8) {x p : Nat → ℝ} (hx : ∀ d, d < 3 → x d = octPoint v d) (hp : |p 0| + |p 1| + |p 2| ≤ 1) (hd : 1e-10 < euclid 3 x p) {w : V3}
    (hw : w = (triNormal (octInput.tri f)).1) : NearPlane 0 x p w := by
  obtain ⟨κ, hκ, ew⟩ := oct_normal f hf
  subst hw
  unfold NearPlane
  rw [show dot3 (fun d : Fin 3 => x d.val - p d.val) (triNormal (octInput.tri f)).1 = κ * ((x 0 - p 0) * ((octSign f 0 : Int) : ℝ) + (x 1 - p 1) * ((octSign f 1 : Int) : ℝ) + (x 2 - p 2) * ((octSign f 2 : Int) : ℝ)) by
    unfold dot3; rw [ew 0, ew 1, ew 2]; show (x 0 - p 0) * (κ * ((octSign f 0 : Int) : ℝ)) + (x 1 - p 1) * (κ * ((octSign f 1 : Int) : ℝ)) + (x 2 - p 2) * (κ * ((octSign f 2 : Int) : ℝ)) = _; ring]
  have hs0 := octSign_sq f 0
  have hs1 := octSign_sq f 1
  have hs2 := octSign_sq f 2
  have hline := oct_line v f
  set s0 := ((octSign f 0 : Int) : ℝ)
  set s1 := ((octSign f 1 : Int) : ℝ)
  set s2 := ((octSign f 2 : Int) : ℝ)
  have hE : euclid 3 x p ^ 2 = (x 0 - p 0) ^ 2 + (x 1 - p 1) ^ 2 + (x 2 - p 2) ^ 2 := by
    rw [euclid_sq]; simp [Finset.sum_range_succ]
  by_contra hno
  push Not at hno
  have hpos : 0 < euclid 3 x p ^ 2 := pow_pos (lt_trans (by norm_num) hd) 2
  rw [hE] at hno hpos
  set a := x 0 - p 0 with ha
  set b := x 1 - p 1 with hb
  set c := x 2 - p 2 with hc
  have h3 : 3 * (a ^ 2 + b ^ 2 + c ^ 2) ≤ (a * s0 + b * s1 + c * s2) ^ 2 := by
    have : (κ * (a * s0 + b * s1 + c * s2)) ^ 2 * 3 = (a * s0 + b * s1 + c * s2) ^ 2 := by
      calc (κ * (a * s0 + b * s1 + c * s2)) ^ 2 * 3 = (κ ^ 2 * 3) * (a * s0 + b * s1 + c * s2) ^ 2 := by ring
        _ = _ := by rw [hκ, one_mul]
    rw [← this]
    linarith
  have hL : 3 * (a ^ 2 + b ^ 2 + c ^ 2) - (a * s0 + b * s1 + c * s2) ^ 2 = (a * s1 - b * s0) ^ 2 + (a * s2 - c * s0) ^ 2 + (b * s2 - c * s1) ^ 2 := by
    have : (a ^ 2 + b ^ 2 + c ^ 2) * (s0 * s0 + s1 * s1 + s2 * s2) - (a * s0 + b * s1 + c * s2) ^ 2 = (a * s1 - b * s0) ^ 2 + (a * s2 - c * s0) ^ 2 + (b * s2 - c * s1) ^ 2 := by ring
    rw [hs0, hs1, hs2] at this
    linarith
  have q1 := sq_nonneg (a * s1 - b * s0)
  have q2 := sq_nonneg (a * s2 - c * s0)
  have q3 := sq_nonneg (b * s2 - c * s1)
  have z1 : a * s1 - b * s0 = 0 := pow_eq_zero_iff (two_ne_zero) |>.1 (by linarith)
  have z2 : a * s2 - c * s0 = 0 := pow_eq_zero_iff (two_ne_zero) |>.1 (by linarith)
  have eb : b = a * s0 * s1 := by
    calc b = b * (s0 * s0) := by rw [hs0, mul_one]
      _ = (a * s1) * s0 := by rw [show a * s1 = b * s0 by linarith]; ring
      _ = _ := by ring
  have ec : c = a * s0 * s2 := by
    calc c = c * (s0 * s0) := by rw [hs0, mul_one]
      _ = (a * s2) * s0 := by rw [show a * s2 = c * s0 by linarith]; ring
      _ = _ := by ring
  have ea : a = a * s0 * s0 := by rw [mul_assoc, hs0, mul_one]
  have ht : a * s0 = 0 := by
    refine hline (a * s0) ?_
    rw [← hx 0 (by omega), ← hx 1 (by omega), ← hx 2 (by omega), ← ea, ← eb, ← ec, ha, hb, hc]
    simpa using hp
  rw [ht, zero_mul] at eb ec ea
  rw [ea, eb, ec] at hpos
  norm_num at hpos

/-- **C93 on an octahedron.** The sampling of an octahedron returns, with one sphere and no seeds. -/
theorem octahedron_returns (mps fuel : Nat) (hm : 101 ≤ mps) : octInput.Ok ∧ ∃ R, sampleModel octInput mps (fuel + 1) = some (some R) ∧ R.surf.tree.num = 1 ∧ R.up = SeedTree.empty ∧ R.lo = SeedTree.empty := by
  refine ⟨octInput_ok, ?_⟩
  obtain ⟨D, C, e1, hD, e2, hC⟩ := C93_corners _ octInput_ok
  have hes := oct_no_edges hD
  have hcs : D.corners = [] := by
    by_contra h
    exact hD.edges_ne h hes
  have hc : C = emptyTree := by
    unfold cornerStage at e2
    rw [if_neg (by simp [hcs])] at e2
    exact (Option.some.inj e2).symm
  have he : edgeStage octInput D C mps (fuel + 1) = some (some EdgeRun.none) := by
    unfold edgeStage
    rw [if_neg (by simp [hes])]
  have hR := (edgeStage_spec octInput_ok hD (by norm_num) (by norm_num) hC mps (fuel + 1)).1 _ he
  have hE := surfSetup_ok octInput_ok hD (by norm_num) (by norm_num) hC hR
  have hl := hD.lines
  rw [if_pos hes] at hl
  obtain ⟨r, er, hr⟩ := first_returns hE rfl le_rfl rfl (by subst hc; rfl) (fun k => rfl) (fun f x hf hx => by
    have hf : f < 8 := hf
    have hw : octInput.normals[f]? = some (triNormal (octInput.tri f)).1 := octInput.normals_get hf
    obtain ⟨-, -, s, es, hs⟩ := C92_distances D.cloud hD.cloud.wf (by rw [hD.cloud.num]; norm_num) octInput.rmin octInput.th octInput_ok.rmin.ge octInput_ok.th0 octInput_ok.th1 x (triNormal (octInput.tri f)).1
    have htop : s = ⊤ := by
      rcases hs.2 with h | ⟨k, hk, ⟨hk1, hk2⟩, -⟩
      · exact h
      · exfalso
        have hkd : k < D.cloud.dir.length := by rw [hD.cloud.dir, ← hD.cloud.num]; exact hk
        have hki : k < D.cloud.ids.length := by rw [hD.cloud.ids, ← hD.cloud.num]; exact hk
        have hon := hD.cloud.on k _ _ (List.getElem?_eq_getElem hkd) (List.getElem?_eq_getElem hki)
        obtain ⟨y, ⟨u, v, w, hu, hv, hw, h1, ey⟩, hy⟩ := hon.inside
        have hlt : D.cloud.ids[k] < 8 := hon.lt
        have hdir : D.cloud.dirAt k = (triNormal (octInput.tri D.cloud.ids[k])).1 := by
          rw [Cloud.dirAt, getD_lt hkd]
          exact Option.some.inj (hon.dir.symm.trans (octInput.normals_get hlt))
        have hp : |D.cloud.tree.pts k 0| + |D.cloud.tree.pts k 1| + |D.cloud.tree.pts k 2| ≤ 1 := by
          rw [hy 0 (by omega), hy 1 (by omega), hy 2 (by omega), ey, ey, ey]
          have tri : ∀ a b c : ℝ, |u * a + v * b + w * c| ≤ u * |a| + v * |b| + w * |c| := fun a b c => by
            refine (abs_add_three _ _ _).trans ?_
            rw [abs_mul, abs_mul, abs_mul, abs_of_nonneg hu, abs_of_nonneg hv, abs_of_nonneg hw]
          have l : ∀ i, |octInput.surface.point i 0| + |octInput.surface.point i 1| + |octInput.surface.point i 2| = 1 := oct_l1
          have lA := l (octInput.surface.corner D.cloud.ids[k] 0)
          have lB := l (octInput.surface.corner D.cloud.ids[k] 1)
          have lC := l (octInput.surface.corner D.cloud.ids[k] 2)
          refine (add_le_add_three (tri _ _ _) (tri _ _ _) (tri _ _ _)).trans ?_
          nlinarith
        exact hk2 ⟨oct_near _ _ hlt (fun d _ => hx d) hp hk1 hdir, oct_near _ f hf (fun d _ => hx d) hp hk1 rfl⟩
    subst htop
    refine ⟨100, ?_, by norm_num, fun v hv => ?_⟩
    · have h1 : (octInput.surfSetup D C EdgeRun.none).surf x f = some ⊤ := by
        show faceDistance octInput D x f = some ⊤
        unfold faceDistance
        rw [hD.normals]
        simp only [hw]
        exact es
      have h2 : (octInput.surfSetup D C EdgeRun.none).cloud x = some ⊤ := by
        show lineDistance octInput D x = some ⊤
        unfold lineDistance
        rw [hl, if_neg (by show ¬ 0 > 0; omega)]
      have h3 : cornerLimit (octInput.surfSetup D C EdgeRun.none) x = some ⊤ := by
        unfold cornerLimit
        rw [if_neg (by subst hc; show ¬ 0 > 0; omega)]
      have h4 : nearSurfDart (octInput.surfSetup D C EdgeRun.none) surfStart 0 x = some [] := if_neg (by show ¬ 0 > 0; omega)
      have h5 : (octInput.surfSetup D C EdgeRun.none).size x = some ⊤ := rfl
      unfold surfRadius
      rw [h1, h2, h3, h4, h5]
      simp only [limitNear, scaleSz_top, min_top_right]
      show some (max (100 : ℝ) 0) = some 100
      norm_num
    · have hd : euclid 3 (octPoint v) x ^ 2 ≤ 4 ^ 2 := by
        rw [euclid_sq]
        simp only [Finset.sum_range_succ, Finset.sum_range_zero, zero_add]
        have q : ∀ d, (octPoint v d - x d) ^ 2 ≤ 4 := fun d => by
          have h1 := abs_le.1 (oct_in v d)
          have h2 : |x d| ≤ 1 := by rw [hx]; exact oct_in _ d
          have h2 := abs_le.1 h2
          nlinarith
        linarith [q 0, q 1, q 2]
      have hd' : euclid 3 (octPoint v) x ≤ 4 := by nlinarith [euclid_nonneg 3 (octPoint v) x]
      have h2 : (1 / 2 : ℝ) ≤ Real.sqrt (1 - 0.4 ^ 2) := Real.le_sqrt_of_sq_le (by norm_num)
      show euclid 3 (octPoint v) x < Real.sqrt (1 - 0.4 ^ 2) * 100
      linarith) mps fuel hm
  refine ⟨⟨D, C, EdgeRun.none, r, SeedTree.empty, SeedTree.empty⟩, ?_, hr, rfl, rfl⟩
  unfold sampleModel
  rw [e1]
  simp only [e2, he, er]

end VoroCrust
