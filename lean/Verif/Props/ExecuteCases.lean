import Verif.Props.Execute
import Verif.Props.FanCases

/-! # C93 and C94 on examples -/

namespace VoroCrust

/-- An input with a given mesh and threshold, without sizing function, all random numbers zero. -/
noncomputable def plainInput (num : Nat) (point : Nat → Nat → ℝ) (faces : List (List Nat)) (th : ℝ) : VcInput where
  num := num
  point := point
  faces := faces
  size := none
  rmin := 0
  rmax := 100
  L := 1 / 2
  th := th
  T := 1
  rb _ _ := false
  U _ := 0
  Ut _ _ := 0
  dart _ _ _ _ := 0
  hm _ _ _ _ := none
  r0 := 0
  other := none

theorem plainInput_ok {num : Nat} {point : Nat → Nat → ℝ} {faces : List (List Nat)} {th : ℝ} (h1 : TriMesh num faces) (h2 : SimpleFaces faces) (h3 : faces ≠ []) (h4 : 0 ≤ th) (h5 : th < 1) :
    (plainInput num point faces th).Ok := by
  refine ⟨h1, h2, h3, rfl, ?_, ?_, ?_, h4, h5, Nat.one_pos, fun _ => ?_, fun _ _ => ?_, fun t h => ?_, fun _ _ _ _ _ h => ?_⟩
  all_goals first | (simp [plainInput] at h; done) | norm_num [plainInput]

/-! ## Three triangles at one edge -/

/-- The end points of the common edge, and three points away from it. -/
def bladePoint (i : Nat) : Nat → ℝ := if i = 0 then mkSphere 0 0 0 0 else if i = 1 then mkSphere 0 0 1 0 else if i = 2 then mkSphere 1 0 0 0 else if i = 3 then mkSphere 0 1 0 0 else mkSphere 0 (-1) 0 0

/-- Three triangles at one edge. -/
def bladeFaces : List (List Nat) := [[0, 1, 2], [0, 1, 3], [0, 1, 4]]

/-- Both ends of the common edge are sharp corners; the corner and edge spheres are defined for it. -/
theorem blades_defined : ∃ D C, detect (plainInput 5 bladePoint bladeFaces (1 / 2)) = some D ∧ cornerStage (plainInput 5 bladePoint bladeFaces (1 / 2)) D = some C ∧ 0 ∈ D.corners ∧ 1 ∈ D.corners ∧
    ∀ mps fuel, edgeStage (plainInput 5 bladePoint bladeFaces (1 / 2)) D C mps fuel ≠ none := by
  have hI : (plainInput 5 bladePoint bladeFaces (1 / 2)).Ok := plainInput_ok (by unfold TriMesh; decide) (by unfold SimpleFaces; decide) (by decide) (by norm_num) (by norm_num)
  obtain ⟨D, C, e1, hD, e2, hC⟩ := C93_corners _ hI
  have hes : D.edges = [(0, 1), (1, 2), (0, 2), (0, 1), (1, 3), (0, 3), (0, 1), (1, 4), (0, 4)] := Option.some.inj (hD.sharp.symm.trans rfl)
  have hcard : ∀ p, p < 2 → p ∈ D.corners := fun p hp => by
    rw [hD.corner]
    refine ⟨by show p < 5; omega, .inr (.inl ?_)⟩
    rw [nbrs_eq fun e he => (hD.ends e he).1, Set.ncard_coe_finset, hes]
    interval_cases p <;> decide
  refine ⟨D, C, e1, e2, hcard 0 (by omega), hcard 1 (by omega), fun mps fuel => C93_edges _ hI D C e1 e2 (.inr ?_) mps fuel⟩
  refine C93_chain _ D C hC 0 1 (hcard 0 (by omega)) (hcard 1 (by omega)) (.single (.inl (by rw [hes]; simp))) (by omega) fun a ha b hb hab => ?_
  have ha : a < 5 := ((hD.corner a).1 ha).1
  have hb : b < 5 := ((hD.corner b).1 hb).1
  show _ ≤ euclid 3 (bladePoint a) (bladePoint b)
  have h1 : 1 ≤ euclid 3 (bladePoint a) (bladePoint b) ^ 2 := by
    rw [euclid_sq]
    simp only [Finset.sum_range_succ, Finset.sum_range_zero]
    interval_cases a <;> interval_cases b <;> first | exact absurd rfl hab | norm_num [bladePoint, mkSphere]
  nlinarith [euclid_nonneg 3 (bladePoint a) (bladePoint b)]

theorem sharpEdges_congr {n : Nat} {faces : List (List Nat)} (h : TriMesh n faces) (hs : SimpleFaces faces) {s s' : Nat → Nat → Bool}
    (he : ∀ a b fi fj, a < n → b < n → facesWith faces a b = [fi, fj] → s fi fj = s' fi fj) : sharpEdges n faces s = sharpEdges n faces s' := by
  rw [sharpEdges_eq h hs, sharpEdges_eq h hs]
  congr 1
  refine List.flatMap_congr fun f hf => List.flatMap_congr fun e hm => ?_
  obtain ⟨g1, g2, g3⟩ := (faceEdges_simple (h f hf).1 (hs f hf)).1 e hm
  unfold sharpEmit
  by_cases h2 : sharedBy faces e.1 e.2 = 2
  · obtain ⟨fi, fj, ef⟩ := two_faces h2
    simp only [ef, he e.1 e.2 fi fj ((h f hf).2 _ g1) ((h f hf).2 _ g2) ef]
  · rw [if_pos h2, if_pos h2]

theorem facesWith_lt {faces : List (List Nat)} {a b f : Nat} (h : f ∈ facesWith faces a b) : f < faces.length := List.mem_range.1 (List.mem_filter.1 h).1

/-! ## A flat octagon -/

/-- The centre and the corners of an octagon. -/
noncomputable def octagonPoint (i : Nat) : Nat → ℝ :=
  if i = 0 then mkSphere 0 0 0 0 else if i = 1 then mkSphere 2 1 0 0 else if i = 2 then mkSphere 1 2 0 0 else if i = 3 then mkSphere (-1) 2 0 0
  else if i = 4 then mkSphere (-2) 1 0 0 else if i = 5 then mkSphere (-2) (-1) 0 0 else if i = 6 then mkSphere (-1) (-2) 0 0 else if i = 7 then mkSphere 1 (-2) 0 0
  else mkSphere 2 (-1) 0 0

/-- The triangles around the centre. -/
def octagonFaces : List (List Nat) := [[0, 1, 2], [0, 2, 3], [0, 3, 4], [0, 4, 5], [0, 5, 6], [0, 6, 7], [0, 7, 8], [0, 8, 1]]

theorem not_bend {th : ℝ} {x : Nat → V3} {a p b : Nat} (hn : dot3 (x a - x p) (x b - x p) ≤ 0)
    (h : th ^ 2 * (dot3 (x a - x p) (x a - x p) * dot3 (x p - x b) (x p - x b)) ≤ dot3 (x a - x p) (x b - x p) ^ 2) (h1 : 1e-20 ≤ dot3 (x a - x p) (x a - x p))
    (h2 : 1e-20 ≤ dot3 (x p - x b) (x p - x b)) : bendSharp th x a p b = false := by
  unfold bendSharp cosAngle
  have s1 : (1e-10 : ℝ) ≤ Real.sqrt (dot3 (x a - x p) (x a - x p)) := Real.le_sqrt_of_sq_le (by norm_num at h1 ⊢; exact h1)
  have s2 : (1e-10 : ℝ) ≤ Real.sqrt (dot3 (x p - x b) (x p - x b)) := Real.le_sqrt_of_sq_le (by norm_num at h2 ⊢; exact h2)
  rw [if_neg (by rintro (h | h) <;> linarith), decide_eq_false_iff_not, not_lt, ← neg_div]
  have hp : 0 < Real.sqrt (dot3 (x a - x p) (x a - x p)) * Real.sqrt (dot3 (x p - x b) (x p - x b)) := mul_pos (by linarith) (by linarith)
  rw [le_div_iff₀ hp, ← Real.sqrt_mul (dot3_self_nonneg _)]
  refine abs_le_of_sq_le_sq' ?_ (by linarith) |>.2
  rw [mul_pow, Real.sq_sqrt (mul_nonneg (dot3_self_nonneg _) (dot3_self_nonneg _)), neg_sq]
  exact h

theorem triNormal_big (c : Fin 3 → V3) (hb : ∀ k d, |c k d| ≤ 2) (h : ∃ d, 1 ≤ |areaVec c d|) : (triNormal c).2 = true := by
  by_contra hno
  have hle := triNormal_false c (by simpa using hno)
  have hl : ∀ k, len3 (fun d => c k d - c 0 d) ≤ 7 := by
    intro k
    unfold len3
    refine Real.sqrt_le_iff.2 ⟨by norm_num, ?_⟩
    unfold dot3
    have : ∀ d, (c k d - c 0 d) * (c k d - c 0 d) ≤ 16 := by
      intro d
      have h1 := abs_le.1 (hb k d)
      have h2 := abs_le.1 (hb 0 d)
      nlinarith
    linarith [this 0, this 1, this 2]
  have h0 : ∀ k, 0 ≤ len3 (fun d => c k d - c 0 d) := fun k => Real.sqrt_nonneg _
  have hge : 1 ≤ len3 (areaVec c) := by
    obtain ⟨d, hd⟩ := h
    unfold len3
    refine Real.le_sqrt_of_sq_le ?_
    have h1 : 1 ≤ areaVec c d * areaVec c d := by
      have := mul_self_le_mul_self (by norm_num : (0 : ℝ) ≤ 1) hd
      rwa [abs_mul_abs_self, one_mul] at this
    unfold dot3
    have q := fun d => mul_self_nonneg (areaVec c d)
    fin_cases d
    · have := q 1; have := q 2; simp at *; linarith
    · have := q 0; have := q 2; simp at *; linarith
    · have := q 0; have := q 1; simp at *; linarith
  unfold triScale at hle
  have := mul_le_mul (hl 1) (hl 2) (h0 2) (by norm_num)
  have := hl 1
  have := hl 2
  linarith

/-- The test of two faces by their area vectors. -/
theorem not_dihedral {I : VcInput} {f g : Nat} (hf : f < I.faces.length) (hg : g < I.faces.length) (bf : ∀ k d, |I.tri f k d| ≤ 2) (bg : ∀ k d, |I.tri g k d| ≤ 2)
    (af : ∃ d, 1 ≤ |areaVec (I.tri f) d|) (ag : ∃ d, 1 ≤ |areaVec (I.tri g) d|)
    (h : I.th ^ 2 * (dot3 (areaVec (I.tri f)) (areaVec (I.tri f)) * dot3 (areaVec (I.tri g)) (areaVec (I.tri g))) ≤ dot3 (areaVec (I.tri f)) (areaVec (I.tri g)) ^ 2)
    (hn : 0 ≤ dot3 (areaVec (I.tri f)) (areaVec (I.tri g))) : dihedralSharp I.th (fun f => I.normals.getD f fun _ => 0) f g = false := by
  obtain ⟨-, uf, -, k, hk, ek⟩ := (triNormal_spec (I.tri f)).resolve_right (by rw [triNormal_big _ bf af]; simp)
  obtain ⟨-, ug, -, l, hl, el⟩ := (triNormal_spec (I.tri g)).resolve_right (by rw [triNormal_big _ bg ag]; simp)
  have nf : (I.normals.getD f fun _ => 0) = fun d => k * areaVec (I.tri f) d := by
    rw [List.getD_eq_getElem?_getD, I.normals_get hf]; exact funext ek
  have ng : (I.normals.getD g fun _ => 0) = fun d => l * areaVec (I.tri g) d := by
    rw [List.getD_eq_getElem?_getD, I.normals_get hg]; exact funext el
  rw [show (triNormal (I.tri f)).1 = fun d => k * areaVec (I.tri f) d from funext ek, dot3_smul_smul] at uf
  rw [show (triNormal (I.tri g)).1 = fun d => l * areaVec (I.tri g) d from funext el, dot3_smul_smul] at ug
  unfold dihedralSharp
  simp only [nf, ng]
  rw [show dot3 (fun d => k * areaVec (I.tri f) d) (fun d => l * areaVec (I.tri g) d) = k * l * dot3 (areaVec (I.tri f)) (areaVec (I.tri g)) by unfold dot3; ring, decide_eq_false_iff_not, not_lt]
  refine abs_le_of_sq_le_sq' ?_ (mul_nonneg (mul_pos hk hl).le hn) |>.2
  have : (k * l) ^ 2 * (I.th ^ 2 * (dot3 (areaVec (I.tri f)) (areaVec (I.tri f)) * dot3 (areaVec (I.tri g)) (areaVec (I.tri g)))) ≤ (k * l) ^ 2 * dot3 (areaVec (I.tri f)) (areaVec (I.tri g)) ^ 2 :=
    mul_le_mul_of_nonneg_left h (sq_nonneg _)
  have e : (k * l) ^ 2 * (I.th ^ 2 * (dot3 (areaVec (I.tri f)) (areaVec (I.tri f)) * dot3 (areaVec (I.tri g)) (areaVec (I.tri g)))) =
      I.th ^ 2 * ((k ^ 2 * dot3 (areaVec (I.tri f)) (areaVec (I.tri f))) * (l ^ 2 * dot3 (areaVec (I.tri g)) (areaVec (I.tri g)))) := by ring
  rw [e, uf, ug] at this
  nlinarith [this]

/-- The octagon. -/
noncomputable def octagon : VcInput := plainInput 9 octagonPoint octagonFaces (1 / 2)

theorem tri_area (I : VcInput) (f : Nat) {a b c : Nat → ℝ} (ha : I.point (I.surface.corner f 0) = a) (hb : I.point (I.surface.corner f 1) = b) (hc : I.point (I.surface.corner f 2) = c) :
    areaVec (I.tri f) 0 = (b 1 - a 1) * (c 2 - a 2) - (b 2 - a 2) * (c 1 - a 1) ∧ areaVec (I.tri f) 1 = (b 2 - a 2) * (c 0 - a 0) - (b 0 - a 0) * (c 2 - a 2) ∧
      areaVec (I.tri f) 2 = (b 0 - a 0) * (c 1 - a 1) - (b 1 - a 1) * (c 0 - a 0) := by
  subst ha hb hc
  exact ⟨rfl, rfl, rfl⟩

theorem octagon_area (f : Nat) (hf : f < 8) : areaVec (octagon.tri f) 0 = 0 ∧ areaVec (octagon.tri f) 1 = 0 ∧ 1 ≤ areaVec (octagon.tri f) 2 := by
  obtain ⟨e0, e1, e2⟩ := tri_area octagon f (a := octagonPoint 0) (b := octagonPoint (f + 1)) (c := octagonPoint (if f = 7 then 1 else f + 2)) (by interval_cases f <;> rfl)
    (by interval_cases f <;> rfl) (by interval_cases f <;> rfl)
  rw [e0, e1, e2]
  interval_cases f <;> norm_num [octagonPoint, mkSphere]

theorem octagon_in (p : Nat) (d : Nat) : |octagonPoint p d| ≤ 2 := by
  unfold octagonPoint
  split_ifs
  all_goals
    unfold mkSphere
    split_ifs <;> norm_num

theorem octagon_ok : octagon.Ok := plainInput_ok (by unfold TriMesh; decide) (by unfold SimpleFaces; decide) (by decide) (by norm_num) (by norm_num)

theorem octagon_flat (f g : Nat) (hf : f < 8) (hg : g < 8) : dihedralSharp octagon.th (fun f => octagon.normals.getD f fun _ => 0) f g = false := by
  obtain ⟨a0, a1, a2⟩ := octagon_area f hf
  obtain ⟨b0, b1, b2⟩ := octagon_area g hg
  refine not_dihedral hf hg (fun k d => octagon_in _ _) (fun k d => octagon_in _ _) ⟨2, a2.trans (le_abs_self _)⟩ ⟨2, b2.trans (le_abs_self _)⟩ ?_ ?_
  · unfold dot3
    rw [a0, a1, b0, b1]
    norm_num [octagon, plainInput]
    nlinarith [mul_self_nonneg (areaVec (octagon.tri f) 2 * areaVec (octagon.tri g) 2)]
  · unfold dot3
    rw [a0, a1, b0, b1]
    nlinarith

/-- A flat octagon has eight sharp edges (its boundary) but no sharp corner, and sampling it is undefined. -/
theorem octagon_undefined : ∃ D, detect octagon = some D ∧ D.edges.length = 8 ∧ D.corners = [] ∧ ∀ mps fuel, sampleModel octagon (mps + 1) (fuel + 1) = none := by
  obtain ⟨D, e, hD⟩ := detect_spec octagon_ok
  have hsharp := hD.sharp
  have hsame : sharpEdges octagon.num octagon.faces (dihedralSharp octagon.th fun f => octagon.normals.getD f fun _ => 0) = sharpEdges 9 octagonFaces fun _ _ => false := by
    refine sharpEdges_congr octagon_ok.mesh octagon_ok.simple fun a b fi fj ha hb hf => octagon_flat fi fj ?_ ?_
    · exact facesWith_lt (faces := octagon.faces) (a := a) (b := b) (by rw [hf]; simp)
    · exact facesWith_lt (faces := octagon.faces) (a := a) (b := b) (by rw [hf]; simp)
  have hes : D.edges = [(1, 2), (2, 3), (3, 4), (4, 5), (5, 6), (6, 7), (7, 8), (1, 8)] := Option.some.inj ((hsame ▸ hsharp).symm.trans (by rfl))
  have hc : D.corners = [] := by
    rw [List.eq_nil_iff_forall_not_mem]
    intro p hp
    obtain ⟨hp, hs⟩ := (hD.corner p).1 hp
    have hp : p < 9 := hp
    have hbend : ∀ a b, (a = (if p = 1 then 8 else p - 1) ∧ b = if p = 8 then 1 else p + 1) ∨ (b = (if p = 1 then 8 else p - 1) ∧ a = if p = 8 then 1 else p + 1) → p ≠ 0 →
        bendSharp octagon.th (fun p => toV3 (octagon.point p)) a p b = false := by
      intro a b hab h0
      rcases hab with ⟨rfl, rfl⟩ | ⟨rfl, rfl⟩ <;> apply not_bend <;> interval_cases p <;> first | exact absurd rfl h0 | norm_num [octagon, plainInput, dot3, octagonPoint, toV3, mkSphere]
    have hn := nbrs_eq (fun e he => (hD.ends e he).1) p
    rcases Nat.eq_zero_or_pos p with rfl | h0
    · have : sharpNbrs D.edges 0 = ∅ := by rw [hn, hes, Finset.coe_eq_empty]; decide
      unfold CornerSpec at hs
      rw [this] at hs
      simp only [Set.ncard_empty] at hs
      rcases hs with hs | hs | ⟨a, b, -, hab, -⟩
      · omega
      · omega
      · exact absurd (hab ▸ Set.mem_insert a {b} : a ∈ (∅ : Set Nat)) (Set.notMem_empty a)
    · have hset : sharpNbrs D.edges p = {if p = 1 then 8 else p - 1, if p = 8 then 1 else p + 1} := by
        rw [hn, hes]
        have : ((([(1, 2), (2, 3), (3, 4), (4, 5), (5, 6), (6, 7), (7, 8), (1, 8)] : List (Nat × Nat)).filter fun e => e.1 == p || e.2 == p).toFinset.image (otherEnd p)) =
            {if p = 1 then 8 else p - 1, if p = 8 then 1 else p + 1} := by interval_cases p <;> decide
        rw [this]; simp
      have hne : (if p = 1 then 8 else p - 1) ≠ if p = 8 then 1 else p + 1 := by split_ifs <;> omega
      unfold CornerSpec at hs
      rw [hset, Set.ncard_pair hne] at hs
      rcases hs with hs | hs | ⟨a, b, hab, he, hb⟩
      · omega
      · omega
      · have ha : a ∈ ({a, b} : Set Nat) := by simp
        have hb' : b ∈ ({a, b} : Set Nat) := by simp
        rw [← he] at ha hb'
        simp only [Set.mem_insert_iff, Set.mem_singleton_iff] at ha hb'
        rw [hbend a b (by rcases ha with ha | ha <;> rcases hb' with hb' | hb' <;> first | exact absurd (ha.trans hb'.symm) hab | exact .inl ⟨ha, hb'⟩ | exact .inr ⟨hb', ha⟩) (by omega)] at hb
        simp at hb
  exact ⟨D, e, by rw [hes]; rfl, hc, fun mps fuel => C93_loops_undefined octagon octagon_ok D e (by rw [hes]; simp) hc mps fuel⟩

/-! ## A minimum radius -/

/-- One triangle with a minimum radius of one; the other detection finds no sharp features. -/
noncomputable def minInput : VcInput := { plainInput 3 bladePoint [[0, 1, 2]] 0 with rmin := 1, other := some ([], [], Cloud.none, Cloud.none) }

/-- With this minimum radius the sampling is undefined, and so is the destructor. -/
theorem minInput_undefined : (∀ mps fuel, sampleModel minInput (mps + 1) (fuel + 1) = none) ∧ ∃ D, detect minInput = some D ∧ freeNormals D = none := by
  have h : minInput.rmin ≠ 0 := by norm_num [minInput]
  have hd : detect minInput = some ⟨none, none, [], [], Cloud.none, Cloud.none⟩ := by unfold detect; rw [if_neg h]; rfl
  exact ⟨fun mps fuel => C94_smooth_undefined _ h (by show TriMesh 3 [[0, 1, 2]]; unfold TriMesh; decide) (by simp [minInput, plainInput]) Nat.one_pos
    (fun t k => by norm_num [minInput, plainInput]) Cloud.none Cloud.none rfl mps fuel, _, hd, (C94_destructor _ _ hd).2 h⟩

end VoroCrust
