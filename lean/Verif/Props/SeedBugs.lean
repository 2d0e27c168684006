import Verif.Props.SeedRun

/-! # Surface seeds (C39): where the claim fails, and a case where it holds -/

namespace VoroCrust

open Classical

/-! ## A power vertex that is wrong -/

theorem dotDim3 (u v : Nat → ℝ) : dotDim u v 3 = u 0 * v 0 + u 1 * v 1 + u 2 * v 2 := by simp [dotDim]

theorem normal_axis {bs : List (Nat → ℝ)} {v : Nat → ℝ} {s : ℝ} {i : Nat} (hi : i < 3) (hs : 0 < s) (h2 : 1e-10 ≤ s ^ 2)
    (h : subComps (bs.map fun b => (b, dotDim v b 3)) v = s • axis i) : normalComponent 3 bs v = (axis i, 1 / s, true) := by
  unfold normalComponent
  simp only [h]
  have e : dotDim (s • axis i) (s • axis i) 3 = s ^ 2 := by
    rw [dotDim3]
    simp only [Pi.smul_apply, smul_eq_mul, axis]
    interval_cases i <;> norm_num <;> ring
  rw [e, if_neg (by rw [abs_of_nonneg (sq_nonneg s)]; exact not_lt.2 h2), Real.sqrt_sq hs.le]
  ext1
  · funext d
    simp only [Pi.smul_apply, smul_eq_mul]
    field_simp
  · rfl

/-- Three spheres with close centres. -/
noncomputable def closeA : Nat → ℝ := mkSphere 0 0 0 3e-5
noncomputable def closeB : Nat → ℝ := mkSphere 9e-6 0 0 3e-5
noncomputable def closeC : Nat → ℝ := mkSphere 0 3e-5 0 3e-5

/-- Directions: the first axis, then the second vector of the remaining basis. -/
def closeDart : Nat → Nat → ℝ := fun k => if k = 0 then axis 0 else axis 1

theorem mk_arm (a b c r : ℝ) : (fun d => mkSphere a b c r d - mkSphere 0 0 0 r d) = fun d => if d = 0 then a else if d = 1 then b else if d = 2 then c else 0 := by
  funext d
  unfold mkSphere
  split
  · ring
  · split
    · ring
    · split <;> ring

theorem arm_B : (fun d => closeB d - closeA d) = (9e-6 : ℝ) • axis 0 := by
  unfold closeA closeB
  rw [mk_arm]; funext d; simp only [Pi.smul_apply, smul_eq_mul, axis]
  split <;> simp

theorem arm_C : (fun d => closeC d - closeA d) = (3e-5 : ℝ) • axis 1 := by
  unfold closeA closeC
  rw [mk_arm]; funext d; simp only [Pi.smul_apply, smul_eq_mul, axis]
  by_cases h0 : d = 0
  · simp [h0]
  · rw [if_neg h0]
    split <;> simp

/-- The state after the first spoke: the first basis vector is not normalised, and the second is parallel to it. -/
noncomputable def closeBasis : Nat → Nat → ℝ := fun j => if j = 0 then (9e-6 : ℝ) • axis 0 else if j = 1 then axis 0 else if j = 2 then axis 1 else axis j

theorem close_fill0 : fillBasis 3 ((9e-6 : ℝ) • axis 0) [1, 2] (upd axis 0 ((9e-6 : ℝ) • axis 0)) = closeBasis := by
  have r3 : List.range 3 = [0, 1, 2] := rfl
  have n1 : normalComponent 3 [(9e-6 : ℝ) • axis 0] (axis 0) = (axis 0, 1 / (1 - 8.1e-11), true) := by
    apply normal_axis (by norm_num) (by norm_num) (by norm_num)
    funext d
    simp only [List.map_cons, List.map_nil, subComps, dotDim3, Pi.smul_apply, smul_eq_mul, axis]
    by_cases h0 : d = 0
    · simp [h0]; norm_num
    · simp [h0]
  have n2 : normalComponent 3 [(9e-6 : ℝ) • axis 0, axis 0] (axis 0) = ((-8.1e-11 : ℝ) • axis 0, 8.1e-11 ^ 2, false) := by
    have e : subComps ([(9e-6 : ℝ) • axis 0, axis 0].map fun b => (b, dotDim (axis 0) b 3)) (axis 0) = (-8.1e-11 : ℝ) • axis 0 := by
      funext d
      simp only [List.map_cons, List.map_nil, subComps, dotDim3, Pi.smul_apply, smul_eq_mul, axis]
      by_cases h0 : d = 0
      · simp [h0]; norm_num
      · simp [h0]
    have e2 : dotDim ((-8.1e-11 : ℝ) • axis 0) ((-8.1e-11 : ℝ) • axis 0) 3 = 8.1e-11 ^ 2 := by
      rw [dotDim3]; simp only [Pi.smul_apply, smul_eq_mul, axis]; norm_num
    unfold normalComponent
    simp only [e, e2]
    rw [if_pos (by norm_num [abs_lt])]
  have n3 : normalComponent 3 [(9e-6 : ℝ) • axis 0, axis 0] (axis 1) = (axis 1, 1 / 1, true) := by
    apply normal_axis (by norm_num) (by norm_num) (by norm_num)
    funext d
    simp only [List.map_cons, List.map_nil, subComps, dotDim3, Pi.smul_apply, smul_eq_mul, axis]
    norm_num
  simp only [fillBasis]
  have l1 : (List.range 1).map (upd axis 0 ((9e-6 : ℝ) • axis 0)) = [(9e-6 : ℝ) • axis 0] := by
    simp [upd, List.range_succ]
  have p1 : ∀ v, pickBasis 3 [(9e-6 : ℝ) • axis 0] [0, 1, 2] v = axis 0 := by
    intro v
    simp only [pickBasis, n1]
    rw [if_pos (by norm_num)]
  rw [l1, r3, p1]
  have l2 : (List.range 2).map (upd (upd axis 0 ((9e-6 : ℝ) • axis 0)) 1 (axis 0)) = [(9e-6 : ℝ) • axis 0, axis 0] := by
    simp [upd, List.range_succ]
  have p2 : ∀ v, pickBasis 3 [(9e-6 : ℝ) • axis 0, axis 0] [0, 1, 2] v = axis 1 := by
    intro v
    simp only [pickBasis, n2, n3]
    rw [if_neg (by norm_num), if_pos (by norm_num)]
  rw [l2, p2]
  funext j
  unfold closeBasis upd
  by_cases h0 : j = 0
  · subst h0; simp
  · by_cases h1 : j = 1
    · subst h1; simp
    · by_cases h2 : j = 2
      · subst h2; simp
      · simp [h0, h1, h2]

theorem swapAt_self {α : Type} (x : Nat → α) (i : Nat) : swapAt x i i = x := by
  funext k; unfold swapAt; by_cases h : k = i <;> simp [h]

theorem close_spoke0 : pvSpoke 3 3 (axis 0) 0 { c := tripleC closeA closeB closeC, r := tripleR closeA closeB closeC, b := axis, x := closeA } =
    some { c := tripleC closeA closeB closeC, r := tripleR closeA closeB closeC, b := closeBasis, x := mkSphere 4.5e-6 0 0 3e-5 } := by
  have hdir : spokeDir (axis 0) axis 0 (3 - 0) = axis 0 := by
    funext d
    simp only [spokeDir, axis]
    norm_num
  have t1 : pvDot2 3 { c := tripleC closeA closeB closeC, r := tripleR closeA closeB closeC, b := axis, x := closeA } (axis 0) 1 = 9e-6 := by
    unfold pvDot2
    rw [show (fun d => tripleC closeA closeB closeC 1 d - tripleC closeA closeB closeC 0 d) = _ from arm_B, dotDim3]
    simp [axis]
  have t2 : pvDot2 3 { c := tripleC closeA closeB closeC, r := tripleR closeA closeB closeC, b := axis, x := closeA } (axis 0) 2 = 0 := by
    unfold pvDot2
    rw [show (fun d => tripleC closeA closeB closeC 2 d - tripleC closeA closeB closeC 0 d) = _ from arm_C, dotDim3]
    simp [axis]
  have ab : tripleC closeA closeB closeC 1 - tripleC closeA closeB closeC 0 = (9e-6 : ℝ) • axis 0 := arm_B
  have d1 : pvDot1 3 { c := tripleC closeA closeB closeC, r := tripleR closeA closeB closeC, b := axis, x := closeA } 1 = 4.05e-11 := by
    rw [pvDot1_eq]
    · simp only [ab]
      rw [ip3, ip3]
      simp [axis, tripleR, tripleC, closeA, closeB, mkSphere]
      norm_num
    · simp only [ab]; rw [ip3]; simp [axis]; norm_num
  unfold pvSpoke
  simp only [hdir]
  rw [show List.range' (0 + 1) (3 - (0 + 1)) = [1, 2] from rfl]
  simp only [pvTrim, t1, t2, d1]
  rw [if_neg (by norm_num [abs_of_pos]), if_pos (by norm_num)]
  simp only
  rw [swapAt_self, swapAt_self]
  have hw : (normalComponent 3 ((List.range 0).map axis) fun d => tripleC closeA closeB closeC (0 + 1) d - tripleC closeA closeB closeC 0 d).1 = (9e-6 : ℝ) • axis 0 := by
    rw [show (fun d => tripleC closeA closeB closeC (0 + 1) d - tripleC closeA closeB closeC 0 d) = _ from arm_B]
    unfold normalComponent
    simp only [List.range_zero, List.map_nil, subComps]
    have e2 : dotDim ((9e-6 : ℝ) • axis 0) ((9e-6 : ℝ) • axis 0) 3 = 8.1e-11 := by
      rw [dotDim3]; simp only [Pi.smul_apply, smul_eq_mul, axis]; norm_num
    rw [e2, if_pos (by norm_num [abs_lt])]
  rw [hw, close_fill0]
  congr 2
  funext d
  simp only [closeA, mkSphere, axis]
  split <;> norm_num

theorem close_spoke1 : ∃ c, pvSpoke 3 3 (axis 1) 1 { c := tripleC closeA closeB closeC, r := tripleR closeA closeB closeC, b := closeBasis, x := mkSphere 4.5e-6 0 0 3e-5 } =
    some { c := tripleC closeA closeB closeC, r := tripleR closeA closeB closeC, b := c, x := mkSphere 4.5e-6 1.5e-5 0 3e-5 } ∧ c 2 = axis 0 := by
  have hdir : spokeDir (axis 1) closeBasis 1 (3 - 1) = axis 1 := by
    funext d
    simp only [spokeDir, closeBasis]
    norm_num [axis]
  have ac : tripleC closeA closeB closeC 2 - tripleC closeA closeB closeC 0 = (3e-5 : ℝ) • axis 1 := arm_C
  have t2 : pvDot2 3 { c := tripleC closeA closeB closeC, r := tripleR closeA closeB closeC, b := closeBasis, x := mkSphere 4.5e-6 0 0 3e-5 } (axis 1) 2 = 3e-5 := by
    unfold pvDot2
    rw [show (fun d => tripleC closeA closeB closeC 2 d - tripleC closeA closeB closeC 0 d) = _ from arm_C, dotDim3]
    simp [axis]
  have d2 : pvDot1 3 { c := tripleC closeA closeB closeC, r := tripleR closeA closeB closeC, b := closeBasis, x := mkSphere 4.5e-6 0 0 3e-5 } 2 = 4.5e-10 := by
    rw [pvDot1_eq]
    · simp only [ac]
      rw [ip3, ip3]
      simp [axis, tripleR, tripleC, closeA, closeC, mkSphere]
      norm_num
    · simp only [ac]; rw [ip3]; simp [axis]; norm_num
  unfold pvSpoke
  simp only [hdir]
  rw [show List.range' (1 + 1) (3 - (1 + 1)) = [2] from rfl]
  simp only [pvTrim, t2, d2]
  rw [if_neg (by norm_num [abs_of_pos])]
  simp only
  rw [swapAt_self, swapAt_self]
  have lb : (List.range 1).map closeBasis = [(9e-6 : ℝ) • axis 0] := by simp [closeBasis, List.range_succ]
  have hw : normalComponent 3 [(9e-6 : ℝ) • axis 0] (fun d => tripleC closeA closeB closeC (1 + 1) d - tripleC closeA closeB closeC 0 d) = (axis 1, 1 / 3e-5, true) := by
    rw [show (fun d => tripleC closeA closeB closeC (1 + 1) d - tripleC closeA closeB closeC 0 d) = _ from arm_C]
    apply normal_axis (by norm_num) (by norm_num) (by norm_num)
    funext d
    simp only [List.map_cons, List.map_nil, subComps, dotDim3, Pi.smul_apply, smul_eq_mul, axis]
    norm_num
  rw [lb, hw]
  refine ⟨_, by
    congr 2
    funext d
    simp only [mkSphere, axis]
    by_cases h1 : d = 1
    · subst h1; norm_num
    · rw [if_neg h1]; simp [h1], ?_⟩
  have n1 : normalComponent 3 [(9e-6 : ℝ) • axis 0, axis 1] (axis 0) = (axis 0, 1 / (1 - 8.1e-11), true) := by
    apply normal_axis (by norm_num) (by norm_num) (by norm_num)
    funext d
    simp only [List.map_cons, List.map_nil, subComps, dotDim3, Pi.smul_apply, smul_eq_mul, axis]
    by_cases h0 : d = 0
    · simp [h0]; norm_num
    · simp [h0]
  have l2 : (List.range 2).map (upd closeBasis 1 (axis 1)) = [(9e-6 : ℝ) • axis 0, axis 1] := by
    simp [upd, List.range_succ, closeBasis]
  simp only [fillBasis, l2]
  rw [show List.range 3 = [0, 1, 2] from rfl]
  simp only [pickBasis, n1]
  rw [if_pos (by norm_num)]
  simp [upd]

/-- The power vertex computed for the three spheres: not the point with equal powers, which has first coordinate `4.5e-6`. -/
theorem close_powerVertex : ∃ pv, powerVertexN 3 3 (tripleC closeA closeB closeC) (tripleR closeA closeB closeC) closeDart = some (some pv) ∧ ∀ d, d < 3 → pv d = mkSphere 0 1.5e-5 0 0 d := by
  obtain ⟨b, e1, hb⟩ := close_spoke1
  unfold powerVertexN
  rw [if_neg (by norm_num)]
  simp only [show (3 - 1 : Nat) = 2 from rfl, pvSpokes, closeDart]
  rw [if_pos trivial, if_neg (by norm_num), show tripleC closeA closeB closeC 0 = closeA from rfl, close_spoke0]
  simp only
  rw [show (0 + 1 : Nat) = 1 from rfl, e1]
  simp only
  refine ⟨_, rfl, fun d hd => ?_⟩
  rw [show List.range' 2 (3 - 2) = [2] from rfl]
  simp only [pvProject, hb, dotDim3]
  interval_cases d <;> simp [tripleC, closeA, mkSphere, axis]

/-! ## Runs on three spheres -/

/-- Three surface spheres and no others. -/
structure Trio (Z : SphereSet) (L : ℝ) (a b c : Nat → ℝ) : Prop where
  ok : Z.OK L
  s : Z.S.num = 3
  e : Z.E.num = 0
  cor : Z.C.num = 0
  at0 : Z.at 0 = a
  at1 : Z.at 1 = b
  at2 : Z.at 2 = c

theorem trio_exists {L : ℝ} (hL0 : 0 ≤ L) (hL1 : L < 1) (a b c : Nat → ℝ) (r : ℝ) (hr : 0 ≤ r) (ha : a 3 = r) (hb : b 3 = r) (hc : c 3 = r) : ∃ Z, Trio Z L a b c := by
  obtain ⟨P, ln, hT, hn, hp⟩ := SphereTree.exists [a, b, c] (by simp) (by
    intro x hx
    simp only [List.mem_cons, List.not_mem_nil, or_false] at hx
    rcases hx with rfl | rfl | rfl
    · rw [ha]; exact hr
    · rw [hb]; exact hr
    · rw [hc]; exact hr)
  have h3 : P.num = 3 := by rw [hn]; rfl
  have p0 := hp 0 (by simp)
  have p1 := hp 1 (by simp)
  have p2 := hp 2 (by simp)
  simp only [List.getElem_cons_zero, List.getElem_cons_succ] at p0 p1 p2
  have hrad : ∀ i, i < 3 → P.pts i 3 = r := by
    intro i hi
    interval_cases i
    · rw [p0, ha]
    · rw [p1, hb]
    · rw [p2, hc]
  refine ⟨⟨P, ln, { P with num := 0 }, ln, { P with num := 0 }, ln⟩, ⟨hL0, hL1, Or.inr ⟨hT, ?_⟩, Or.inl rfl, Or.inl rfl⟩, h3, rfl, rfl, ?_, ?_, ?_⟩
  · intro i j hi hj
    rw [h3] at hi hj
    rw [hrad i hi, hrad j hj]
    nlinarith [euclid_nonneg 3 (P.pts i) (P.pts j)]
  · unfold SphereSet.at; rw [if_pos (by simp only; omega)]; exact p0
  · unfold SphereSet.at; rw [if_pos (by simp only; omega)]; exact p1
  · unfold SphereSet.at; rw [if_pos (by simp only; omega)]; exact p2

theorem Trio.meeting {Z : SphereSet} {L : ℝ} {a b c : Nat → ℝ} (h : Trio Z L a b c) {i j k : Nat} (ht : MeetingTriple Z i j k) : i = 0 ∧ j = 1 ∧ k = 2 := by
  have h1 := ht.ij
  have h2 := ht.jk
  have h3 := ht.last
  unfold SphereSet.total at h3
  rw [h.s, h.e, h.cor] at h3
  omega

/-- The triples of each sphere. -/
theorem Trio.triples {Z : SphereSet} {L : ℝ} {a b c : Nat → ℝ} (h : Trio Z L a b c) (hm : MeetingTriple Z 0 1 2) :
    (∃ near ts, nearSpheres Z L 0 = some near ∧ seedTriples Z 0 near = (0, 1, 2) :: ts ∧ ∀ t ∈ ts, t = (0, 1, 2)) ∧
      ∀ i, i = 1 ∨ i = 2 → ∃ near, nearSpheres Z L i = some near ∧ seedTriples Z i near = [] := by
  have key : ∀ i, i < 3 → ∃ near, nearSpheres Z L i = some near ∧ (∀ t ∈ seedTriples Z i near, i = 0 ∧ t = (0, 1, 2)) ∧
      (i = 0 → (0, 1, 2) ∈ seedTriples Z i near) := by
    intro i hi
    have hi' : i < Z.S.num := by rw [h.s]; exact hi
    obtain ⟨near, e, n1, n2⟩ := nearSpheres_spec h.ok hi'
    refine ⟨near, e, fun t ht => ?_, fun h0 => ?_⟩
    · obtain ⟨q1, q2, q3, q4, q5, q6, q7, q8⟩ := mem_seedTriples.1 ht
      have := h.meeting (i := i) (j := t.2.1) (k := t.2.2) ⟨hi', q4, q5, n1 _ q3, (meets_iff _ _).1 q6, (meets_iff _ _).1 q7, (meets_iff _ _).1 q8⟩
      refine ⟨this.1, ?_⟩
      obtain ⟨t1, t2, t3⟩ := t
      simp only at q1 this
      rw [q1, this.1, this.2.1, this.2.2]
    · subst h0
      refine mem_seedTriples.2 ⟨rfl, ?_, ?_, by norm_num, by norm_num, (meets_iff _ _).2 hm.meet_ij, (meets_iff _ _).2 hm.meet_ik, (meets_iff _ _).2 hm.meet_jk⟩
      · exact n2 1 (lt_trans hm.jk hm.last) (lt_of_le_of_lt hm.meet_ij (by norm_num))
      · exact n2 2 hm.last (lt_of_le_of_lt hm.meet_ik (by norm_num))
  constructor
  · obtain ⟨near, e, h1, h2⟩ := key 0 (by norm_num)
    have hmem := h2 rfl
    cases hts : seedTriples Z 0 near with
    | nil => rw [hts] at hmem; simp at hmem
    | cons t ts =>
      rw [hts] at h1
      have ht := (h1 t (by simp)).2
      refine ⟨near, ts, e, by rw [hts, ht], fun q hq => (h1 q (by simp [hq])).2⟩
  · intro i hi
    obtain ⟨near, e, h1, -⟩ := key i (by omega)
    refine ⟨near, e, List.eq_nil_iff_forall_not_mem.2 fun t ht => ?_⟩
    have := (h1 t ht).1; omega

/-- **C39, finding.** When the first random direction is perpendicular to the arms of the first overlapping triple, the power vertex reports failure, the return value is ignored, and an
uninitialised point is read: three unit spheres with centres on two axes and the third axis as the direction. -/
theorem C39_unlucky_direction_undefined : ∃ Z L, Trio Z L (mkSphere 0 0 0 1) (mkSphere 1 0 0 1) (mkSphere 0 1 0 1) ∧ MeetingTriple Z 0 1 2 ∧
    ∀ env : SeedEnv, env.dart 0 0 = axis 2 → surfaceSeeds Z L env = none := by
  obtain ⟨Z, hZ⟩ := trio_exists (L := 1 / 2) (by norm_num) (by norm_num) (mkSphere 0 0 0 1) (mkSphere 1 0 0 1) (mkSphere 0 1 0 1) 1 (by norm_num) rfl rfl rfl
  have d1 : euclid 3 (mkSphere 0 0 0 1) (mkSphere 1 0 0 1) = 1 := euclid_mk (by norm_num) (by norm_num)
  have d2 : euclid 3 (mkSphere 0 0 0 1) (mkSphere 0 1 0 1) = 1 := euclid_mk (by norm_num) (by norm_num)
  have d3 : euclid 3 (mkSphere 1 0 0 1) (mkSphere 0 1 0 1) = Real.sqrt 2 := euclid_mk (Real.sqrt_nonneg _) (by rw [Real.sq_sqrt (by norm_num)]; norm_num)
  have hs : Real.sqrt 2 ≤ 1.5 := by rw [Real.sqrt_le_left (by norm_num)]; norm_num
  have hm : MeetingTriple Z 0 1 2 := by
    refine ⟨by rw [hZ.s]; norm_num, by norm_num, by norm_num, by unfold SphereSet.total; rw [hZ.s, hZ.e, hZ.cor]; norm_num, ?_, ?_, ?_⟩
    · rw [hZ.at0, hZ.at1, d1]; norm_num [mkSphere]
    · rw [hZ.at0, hZ.at2, d2]; norm_num [mkSphere]
    · rw [hZ.at1, hZ.at2, d3]; norm_num [mkSphere] at hs ⊢; linarith
  refine ⟨Z, 1 / 2, hZ, hm, fun env hdart => ?_⟩
  obtain ⟨⟨near, ts, e1, e2, -⟩, -⟩ := hZ.triples hm
  have hpv : powerVertexN 3 3 (tripleC (Z.at 0) (Z.at 1) (Z.at 2)) (tripleR (Z.at 0) (Z.at 1) (Z.at 2)) (env.dart 0) = some none := by
    rw [hZ.at0, hZ.at1, hZ.at2]
    unfold powerVertexN
    rw [if_neg (by norm_num)]
    have hdir : spokeDir (axis 2) axis 0 (3 - 0) = axis 2 := by
      funext d
      simp only [spokeDir, axis]
      norm_num
    have hsp : pvSpoke 3 3 (axis 2) 0 ⟨tripleC (mkSphere 0 0 0 1) (mkSphere 1 0 0 1) (mkSphere 0 1 0 1), tripleR (mkSphere 0 0 0 1) (mkSphere 1 0 0 1) (mkSphere 0 1 0 1), axis,
        tripleC (mkSphere 0 0 0 1) (mkSphere 1 0 0 1) (mkSphere 0 1 0 1) 0⟩ = none := by
      unfold pvSpoke
      simp only [hdir]
      rw [show List.range' (0 + 1) (3 - (0 + 1)) = [1, 2] from rfl]
      simp only [pvTrim, pvDot2, dotDim3]
      norm_num [tripleC, mkSphere, axis]
    simp only [show (3 - 1 : Nat) = 2 from rfl, pvSpokes, hdart, hsp]
  unfold surfaceSeeds
  rw [hZ.s, show List.range 3 = [0, 1, 2] from rfl]
  have hst : seedTriple Z (1 / 2) env (0, 1, 2) ⟨none, 0, [], SeedTree.empty, SeedTree.empty⟩ = none := by
    unfold seedTriple
    have hpv' : powerVertexN 3 3 (fun i => if i = 0 then Z.at 0 else if i = 1 then Z.at 1 else Z.at 2) (fun i => if i = 0 then Z.at 0 3 else if i = 1 then Z.at 1 3 else Z.at 2 3) (env.dart 0) = some none := hpv
    simp only [hpv']
  simp only [seedSphereLoop, e1, e2, seedTripleLoop, hst]

/-- Everything but storing the pair. -/
theorem Trio.step {Z : SphereSet} {L : ℝ} {a b c : Nat → ℝ} (hZ : Trio Z L a b c) {env : SeedEnv} {pv : Nat → ℝ} {n : V3 × Bool} {v r : ℝ}
    (hpv : ∀ k, powerVertexN 3 3 (tripleC a b c) (tripleR a b c) (env.dart k) = some (some pv)) (hh : euclid 3 pv a ≤ a 3 - 1e-10)
    (hA : 1e-10 ≤ triArea (centreTri a b c)) (hv : v = Real.sqrt (a 3 * a 3 - euclid 3 pv a * euclid 3 pv a)) (hn : n = seedNormal a b c (env.face 0))
    (hr : r = min (min (a 3) (b 3)) (c 3)) (s : SeedRun) (hs : s.slivers = []) :
    seedTriple Z L env (0, 1, 2) s =
      (addPair env.rb s.up s.lo (seedAt pv v n.1 r) (seedAt pv (-v) n.1 r) 0 (if n.2 then 2 else 1) (if n.2 then 1 else 2)).map fun q =>
        { c := some pv, calls := s.calls + 1, slivers := [], up := q.1, lo := q.2 } := by
  have htot : Z.total = 3 := by unfold SphereSet.total; rw [hZ.s, hZ.e, hZ.cor]
  obtain ⟨cu, cl, cs, ec, -, -, h1, h2, -⟩ := coverPair_spec hZ.ok 0 1 2 (by omega) (by omega) (by omega) (seedAt pv v n.1 r) (seedAt pv (-v) n.1 r)
  have c1 := h1 fun q q1 q2 q3 q4 => by omega
  have c2 := h2 fun q q1 q2 q3 q4 => by omega
  subst c1 c2
  unfold seedTriple
  simp only [hZ.at0, hZ.at1, hZ.at2, distance_eq]
  have hpv' := hpv s.calls
  unfold tripleC tripleR at hpv'
  rw [hpv']
  simp only
  rw [if_neg (not_lt.2 hh), if_neg (not_lt.2 hA), ← hv, ← hn, ← hr, ec]
  simp only [ne_eq, not_true_eq_false, if_false]
  rw [if_pos (by simp [hs])]
  cases addPair env.rb s.up s.lo (seedAt pv v n.1 r) (seedAt pv (-v) n.1 r) 0 (if n.2 then 2 else 1) (if n.2 then 1 else 2) with
  | none => rfl
  | some q => obtain ⟨x, y⟩ := q; simp [hs]

/-- The whole run stores exactly one pair. -/
theorem Trio.run {Z : SphereSet} {L : ℝ} {a b c : Nat → ℝ} (hZ : Trio Z L a b c) (hm : MeetingTriple Z 0 1 2) {env : SeedEnv} {pv : Nat → ℝ} {n : V3 × Bool} {v r : ℝ}
    (hpv : ∀ k, powerVertexN 3 3 (tripleC a b c) (tripleR a b c) (env.dart k) = some (some pv)) (hh : euclid 3 pv a ≤ a 3 - 1e-10)
    (hA : 1e-10 ≤ triArea (centreTri a b c)) (hv : v = Real.sqrt (a 3 * a 3 - euclid 3 pv a * euclid 3 pv a)) (hn : n = seedNormal a b c (env.face 0))
    (hr : r = min (min (a 3) (b 3)) (c 3)) :
    ∃ up lo, surfaceSeeds Z L env = some (Z.S, false, up, lo) ∧ up.points = [seedAt pv v n.1 r] ∧ lo.points = [seedAt pv (-v) n.1 r] ∧
      up.attr = [⟨0, 0, if n.2 then 2 else 1, if n.2 then 1 else 2⟩] ∧ lo.attr = [⟨0, 0, if n.2 then 2 else 1, if n.2 then 1 else 2⟩] := by
  set U := seedAt pv v n.1 r with hU
  set W := seedAt pv (-v) n.1 r with hW
  -- first storing
  obtain ⟨tu, eu, holdU, attrU⟩ := addSeed_spec (SeedTree.empty_holds env.rb) U (by simp) ⟨0, 0, if n.2 then 2 else 1, if n.2 then 1 else 2⟩
  obtain ⟨tl, el, holdL, attrL⟩ := addSeed_spec (SeedTree.empty_holds env.rb) W (by simp) ⟨0, 0, if n.2 then 2 else 1, if n.2 then 1 else 2⟩
  simp only [List.nil_append] at holdU holdL
  have first : addPair env.rb SeedTree.empty SeedTree.empty U W 0 (if n.2 then 2 else 1) (if n.2 then 1 else 2) = some (tu, tl) := by
    have e0 : ∀ x, seedIndex SeedTree.empty x = some 0 := fun x => by unfold seedIndex; rw [if_pos (show SeedTree.empty.tree.num = 0 from rfl)]
    unfold addPair
    rw [e0, e0]
    simp only
    rw [if_pos (show 0 = SeedTree.empty.tree.num from rfl), if_pos (show 0 = SeedTree.empty.tree.num from rfl), eu, el]
  have self0 : ∀ x : Nat → ℝ, euclid 3 x x < 1e-10 := fun x => (show StandsFor x x from Or.inl rfl).dist
  -- storing again changes nothing
  have again : addPair env.rb tu tl U W 0 (if n.2 then 2 else 1) (if n.2 then 1 else 2) = some (tu, tl) := by
    obtain ⟨iu, eu', hu⟩ := seedIndex_spec holdU U
    obtain ⟨il, el', hl⟩ := seedIndex_spec holdL W
    have hu' : iu < 1 := by
      rcases hu with ⟨hu, -⟩ | ⟨-, hu⟩
      · simpa using hu
      · exact absurd (hu U (by simp)) (not_le.2 (self0 U))
    have hl' : il < 1 := by
      rcases hl with ⟨hl, -⟩ | ⟨-, hl⟩
      · simpa using hl
      · exact absurd (hl W (by simp)) (not_le.2 (self0 W))
    unfold addPair
    rw [eu', el']
    simp only
    rw [if_neg (by rw [holdL.num]; simp; omega), if_neg (by rw [holdU.num]; simp; omega)]
  have loop : ∀ ts : List (Nat × Nat × Nat), (∀ t ∈ ts, t = (0, 1, 2)) → ∀ s : SeedRun, s.slivers = [] → s.up = tu → s.lo = tl →
      ∃ s' : SeedRun, seedTripleLoop Z L env ts s = some s' ∧ s'.slivers = [] ∧ s'.up = tu ∧ s'.lo = tl := by
    intro ts
    induction ts with
    | nil => intro _ s h1 h2 h3; exact ⟨s, rfl, h1, h2, h3⟩
    | cons t ts ih =>
      intro hts s h1 h2 h3
      rw [hts t (by simp)]
      unfold seedTripleLoop
      rw [hZ.step hpv hh hA hv hn hr s h1, h2, h3, ← hU, ← hW, again]
      exact ih (fun t ht => hts t (by simp [ht])) _ rfl rfl rfl
  obtain ⟨⟨near, ts, e1, e2, e3⟩, hrest⟩ := hZ.triples hm
  obtain ⟨near1, f1, f1'⟩ := hrest 1 (Or.inl rfl)
  obtain ⟨near2, f2, f2'⟩ := hrest 2 (Or.inr rfl)
  obtain ⟨s', es', g1, g2, g3⟩ := loop ts e3 { c := some pv, calls := 0 + 1, slivers := [], up := tu, lo := tl } rfl rfl rfl
  have hrun : seedSphereLoop Z L env (List.range Z.S.num) ⟨none, 0, [], SeedTree.empty, SeedTree.empty⟩ = some s' := by
    rw [hZ.s, show List.range 3 = [0, 1, 2] from rfl]
    simp only [seedSphereLoop, e1, e2, f1, f2, f1', f2', seedTripleLoop]
    rw [hZ.step hpv hh hA hv hn hr _ rfl]
    simp only [← hU, ← hW, first, Option.map_some, es']
  have hrad : ∀ i, i < Z.S.num → 0 ≤ Z.S.pts i 3 := by
    intro i hi
    have := hZ.ok.radius (i := i) (by unfold SphereSet.total; omega)
    unfold SphereSet.at at this; rwa [if_pos hi] at this
  have s1U : ∀ (i : Nat) (a : SeedAttr), tu.attr[i]? = some a → a.s1 < Z.S.num := by
    intro i a ha
    rw [attrU] at ha
    simp only [SeedTree.empty, List.nil_append] at ha
    have := List.mem_of_getElem? ha
    rw [List.mem_singleton.1 this, hZ.s]; norm_num
  have s1L : ∀ (i : Nat) (a : SeedAttr), tl.attr[i]? = some a → a.s1 < Z.S.num := by
    intro i a ha
    rw [attrL] at ha
    simp only [SeedTree.empty, List.nil_append] at ha
    have := List.mem_of_getElem? ha
    rw [List.mem_singleton.1 this, hZ.s]; norm_num
  have nU : tu.tree.num = 1 := holdU.num
  have nL : tl.tree.num = 1 := holdL.num
  obtain ⟨m1, k1, t1, -⟩ := closeSeeds_spec hrad holdU s1U (List.range tu.tree.num) (fun i hi => by rw [← holdU.num]; exact List.mem_range.1 hi) (fun _ => false, false)
  obtain ⟨m2, k2, t2, -⟩ := closeSeeds_spec hrad holdL s1L (List.range tl.tree.num) (fun i hi => by rw [← holdL.num]; exact List.mem_range.1 hi) m1
  have hb : ¬ m2.2 = true := by
    intro hb
    rcases t2 hb with h1 | ⟨i, hi, a, q, -, hq, hqi, -⟩
    · rcases t1 h1 with h1 | ⟨i, hi, a, q, -, hq, hqi, -⟩
      · simp at h1
      · have := List.mem_range.1 hi; omega
    · have := List.mem_range.1 hi; omega
  refine ⟨tu, tl, ?_, holdU.points, holdL.points, by rw [attrU]; rfl, by rw [attrL]; rfl⟩
  unfold surfaceSeeds
  rw [hrun]
  simp only
  rw [if_neg (not_not.2 g1), g2, g3, k1]
  simp only
  rw [k2]
  simp only
  rw [if_neg hb]

/-- **C39, finding.** Spheres whose centres are less than `1e-5` apart can pass all tests of the code and still give seeds that are not on their spheres: the power vertex is wrong
because a basis vector is not normalised.  Radii `3e-5`, centres `9e-6` and `3e-5` from the first; the seed is more than `1e-6` outside the second sphere. -/
theorem C39_close_centres_false : ∃ Z L env up lo, Trio Z L closeA closeB closeC ∧ MeetingTriple Z 0 1 2 ∧ surfaceSeeds Z L env = some (Z.S, false, up, lo) ∧
    up.tree.num = 1 ∧ Z.at 1 3 + 1e-6 ≤ euclid 3 (up.tree.pts 0) (Z.at 1) ∧ ∃ a, up.attr = [a] ∧ a.s1 = 0 ∧ (a.s2 = 1 ∨ a.s3 = 1) := by
  obtain ⟨Z, hZ⟩ := trio_exists (L := 1 / 2) (by norm_num) (by norm_num) closeA closeB closeC 3e-5 (by norm_num) rfl rfl rfl
  have d1 : euclid 3 closeA closeB = 9e-6 := euclid_mk (by norm_num) (by norm_num)
  have d2 : euclid 3 closeA closeC = 3e-5 := euclid_mk (by norm_num) (by norm_num)
  have d3 : euclid 3 closeB closeC ≤ 5e-5 := by
    have h1 := euclid_triangle 3 closeB closeA closeC
    rw [euclid_comm 3 closeB closeA, d1, d2] at h1
    exact h1.trans (by norm_num)
  have hm : MeetingTriple Z 0 1 2 := by
    refine ⟨by rw [hZ.s]; norm_num, by norm_num, by norm_num, by unfold SphereSet.total; rw [hZ.s, hZ.e, hZ.cor]; norm_num, ?_, ?_, ?_⟩
    · rw [hZ.at0, hZ.at1, d1]; norm_num [mkSphere, closeA, closeB]
    · rw [hZ.at0, hZ.at2, d2]; norm_num [mkSphere, closeA, closeC]
    · rw [hZ.at1, hZ.at2]; exact d3.trans (by norm_num [mkSphere, closeB, closeC])
  obtain ⟨pv, epv, hpv⟩ := close_powerVertex
  have hpa : euclid 3 pv closeA = 1.5e-5 := by
    rw [euclid_congr3 hpv (fun _ _ => rfl)]; exact euclid_mk (by norm_num) (by norm_num)
  have hA0 : ∀ d : Fin 3, areaVec (centreTri closeA closeB closeC) d = if d = 2 then 2.7e-10 else 0 := by
    intro d
    fin_cases d <;> simp [areaVec, cross3, centreTri, toV3, closeA, closeB, closeC, mkSphere] <;> norm_num
  have hA : 1e-10 ≤ triArea (centreTri closeA closeB closeC) := by
    have e : triArea (centreTri closeA closeB closeC) = 0.5 * Real.sqrt ((2.7e-10) ^ 2) := by
      have h0 := hA0 0
      have h1 := hA0 1
      have h2 := hA0 2
      unfold areaVec at h0 h1 h2
      unfold triArea
      simp only [h0, h1, h2]
      rw [if_neg (by decide : ¬ (0 : Fin 3) = 2), if_neg (by decide : ¬ (1 : Fin 3) = 2), if_pos trivial]
      norm_num
    rw [e, Real.sqrt_sq (by norm_num)]; norm_num
  let env : SeedEnv := ⟨fun _ => closeDart, fun _ _ _ => 0, fun _ => (0, 0), fun _ _ => false⟩
  obtain ⟨up, lo, e, pu, -, au, -⟩ := hZ.run hm (env := env) (pv := pv) (fun _ => epv) (by rw [hpa]; norm_num [closeA, mkSphere]) hA rfl rfl rfl
  have hnum : up.tree.num = 1 := by
    have := congrArg List.length pu
    simpa [SeedTree.points] using this
  refine ⟨Z, 1 / 2, env, up, lo, hZ, hm, e, hnum, ?_, _, au, rfl, ?_⟩
  · have hp0 : up.tree.pts 0 = seedAt pv (Real.sqrt (closeA 3 * closeA 3 - euclid 3 pv closeA * euclid 3 pv closeA)) (seedNormal closeA closeB closeC (env.face 0)).1
        (min (min (closeA 3) (closeB 3)) (closeC 3)) := by
      unfold SeedTree.points at pu
      rw [hnum] at pu
      simpa [List.range_succ] using pu
    rw [hp0, hZ.at1, hpa]
    -- the normal is a unit vector along the third axis
    have hn : (seedNormal closeA closeB closeC (env.face 0)).1 0 = 0 ∧ (seedNormal closeA closeB closeC (env.face 0)).1 1 = 0 ∧ (seedNormal closeA closeB closeC (env.face 0)).1 2 ^ 2 = 1 := by
      have base : (triNormal (centreTri closeA closeB closeC)).1 0 = 0 ∧ (triNormal (centreTri closeA closeB closeC)).1 1 = 0 ∧ (triNormal (centreTri closeA closeB closeC)).1 2 ^ 2 = 1 := by
        rcases triNormal_spec (centreTri closeA closeB closeC) with ⟨-, q1, -, k, -, q2⟩ | ⟨-, q⟩
        · have z0 : (triNormal (centreTri closeA closeB closeC)).1 0 = 0 := by rw [q2, hA0]; simp
          have z1 : (triNormal (centreTri closeA closeB closeC)).1 1 = 0 := by rw [q2, hA0]; simp
          refine ⟨z0, z1, ?_⟩
          unfold dot3 at q1
          rw [z0, z1] at q1
          linarith
        · exfalso
          have l1 : len3 (fun d => centreTri closeA closeB closeC 1 d - centreTri closeA closeB closeC 0 d) = 9e-6 := by
            unfold len3
            have : dot3 (fun d => centreTri closeA closeB closeC 1 d - centreTri closeA closeB closeC 0 d) (fun d => centreTri closeA closeB closeC 1 d - centreTri closeA closeB closeC 0 d) = (9e-6) ^ 2 := by
              simp [dot3, centreTri, toV3, closeA, closeB, mkSphere]; norm_num
            rw [this, Real.sqrt_sq (by norm_num)]
          have l2 : len3 (fun d => centreTri closeA closeB closeC 2 d - centreTri closeA closeB closeC 0 d) = 3e-5 := by
            unfold len3
            have : dot3 (fun d => centreTri closeA closeB closeC 2 d - centreTri closeA closeB closeC 0 d) (fun d => centreTri closeA closeB closeC 2 d - centreTri closeA closeB closeC 0 d) = (3e-5) ^ 2 := by
              simp [dot3, centreTri, toV3, closeA, closeC, mkSphere]; norm_num
            rw [this, Real.sqrt_sq (by norm_num)]
          have l3 : len3 (areaVec (centreTri closeA closeB closeC)) = 2.7e-10 := by
            unfold len3
            have : dot3 (areaVec (centreTri closeA closeB closeC)) (areaVec (centreTri closeA closeB closeC)) = (2.7e-10) ^ 2 := by
              unfold dot3; rw [hA0, hA0, hA0]; simp; norm_num
            rw [this, Real.sqrt_sq (by norm_num)]
          rw [l1, l2, l3] at q
          norm_num at q
      unfold seedNormal
      simp only
      split
      · simp only [base.1, base.2.1]
        exact ⟨by norm_num, by norm_num, by rw [neg_sq]; exact base.2.2⟩
      · exact base
    obtain ⟨u1, -⟩ := seedAt_spec pv (Real.sqrt (closeA 3 * closeA 3 - 1.5e-5 * 1.5e-5)) (seedNormal closeA closeB closeC (env.face 0)).1 (min (min (closeA 3) (closeB 3)) (closeC 3))
    set u := seedAt pv (Real.sqrt (closeA 3 * closeA 3 - 1.5e-5 * 1.5e-5)) (seedNormal closeA closeB closeC (env.face 0)).1 (min (min (closeA 3) (closeB 3)) (closeC 3)) with hu
    have hsq : Real.sqrt (closeA 3 * closeA 3 - 1.5e-5 * 1.5e-5) ^ 2 = 6.75e-10 := by
      rw [Real.sq_sqrt (by norm_num [closeA, mkSphere])]; norm_num [closeA, mkSphere]
    have hd : euclid 3 u closeB ^ 2 = 9.81e-10 := by
      rw [euclid_ip, ip3]
      simp only [Pi.sub_apply]
      rw [u1 0 (by norm_num), u1 1 (by norm_num), u1 2 (by norm_num), (ofV3_at _).1, (ofV3_at _).2.1, (ofV3_at _).2.2, hn.1, hn.2.1, hpv 0 (by norm_num), hpv 1 (by norm_num), hpv 2 (by norm_num)]
      set w := (seedNormal closeA closeB closeC (env.face 0)).1 2 with hw
      set q := Real.sqrt (closeA 3 * closeA 3 - 1.5e-5 * 1.5e-5) with hq
      have : (q * w) ^ 2 = 6.75e-10 := by rw [mul_pow, hsq, hn.2.2, mul_one]
      simp only [closeB, mkSphere]
      norm_num at this ⊢
      nlinarith
    have hb3 : closeB 3 = 3e-5 := rfl
    rw [hb3]
    by_contra hlt
    push Not at hlt
    have h0 := euclid_nonneg 3 u closeB
    nlinarith
  · simp only
    by_cases hr : (seedNormal closeA closeB closeC (env.face 0)).2 = true
    · right; rw [if_pos hr]
    · left; rw [if_neg hr]

/-! ## A run that works -/

theorem unit_spread : Spread 3 3 (tripleC (mkSphere 0 0 0 1) (mkSphere 1 0 0 1) (mkSphere 0 1 0 1)) := by
  intro i h1 h2 v hv
  have hi : i = 1 ∨ i = 2 := by omega
  rcases hi with rfl | rfl
  · have hv0 : v 0 = 0 := by
      have := ip_span (n := 3) (y := axis 0) ?_ hv
      · rwa [ip_axis 3 v (by norm_num)] at this
      · rintro u ⟨j, j1, j2, j3, rfl⟩
        have : j = 2 := by omega
        subst this
        rw [ip_axis 3 _ (by norm_num)]; simp [tripleC, mkSphere]
    rw [ip3]
    simp only [Pi.sub_apply, hv0]
    norm_num [tripleC, mkSphere]
    nlinarith [mul_self_nonneg (v 1), mul_self_nonneg (v 2)]
  · have hv1 : v 1 = 0 := by
      have := ip_span (n := 3) (y := axis 1) ?_ hv
      · rwa [ip_axis 3 v (by norm_num)] at this
      · rintro u ⟨j, j1, j2, j3, rfl⟩
        have : j = 1 := by omega
        subst this
        rw [ip_axis 3 _ (by norm_num)]; simp [tripleC, mkSphere]
    rw [ip3]
    simp only [Pi.sub_apply, hv1]
    norm_num [tripleC, mkSphere]
    nlinarith [mul_self_nonneg (v 0), mul_self_nonneg (v 2)]

-- non-vacuity of `C39_seed_pairs_partial`: three unit spheres meet its hypotheses, and one pair of seeds is stored
example : ∃ Z L env up lo, Z.OK L ∧ env.Works Z ∧ (∀ (cs : List Nat) (sp : Nat), cs[(env.resolve cs).1]? = some sp → sp < Z.S.num) ∧ MeetingTriple Z 0 1 2 ∧
    surfaceSeeds Z L env = some (Z.S, false, up, lo) ∧ up.tree.num = 1 ∧ lo.tree.num = 1 := by
  obtain ⟨Z, hZ⟩ := trio_exists (L := 1 / 2) (by norm_num) (by norm_num) (mkSphere 0 0 0 1) (mkSphere 1 0 0 1) (mkSphere 0 1 0 1) 1 (by norm_num) rfl rfl rfl
  have d1 : euclid 3 (mkSphere 0 0 0 1) (mkSphere 1 0 0 1) = 1 := euclid_mk (by norm_num) (by norm_num)
  have d2 : euclid 3 (mkSphere 0 0 0 1) (mkSphere 0 1 0 1) = 1 := euclid_mk (by norm_num) (by norm_num)
  have d3 : euclid 3 (mkSphere 1 0 0 1) (mkSphere 0 1 0 1) = Real.sqrt 2 := euclid_mk (Real.sqrt_nonneg _) (by rw [Real.sq_sqrt (by norm_num)]; norm_num)
  have hs : Real.sqrt 2 ≤ 1.5 := by rw [Real.sqrt_le_left (by norm_num)]; norm_num
  have hm : MeetingTriple Z 0 1 2 := by
    refine ⟨by rw [hZ.s]; norm_num, by norm_num, by norm_num, by unfold SphereSet.total; rw [hZ.s, hZ.e, hZ.cor]; norm_num, ?_, ?_, ?_⟩
    · rw [hZ.at0, hZ.at1, d1]; norm_num [mkSphere]
    · rw [hZ.at0, hZ.at2, d2]; norm_num [mkSphere]
    · rw [hZ.at1, hZ.at2, d3]; norm_num [mkSphere] at hs ⊢; linarith
  obtain ⟨dart, -, pv, epv⟩ := C71_success_possible 3 3 (by norm_num) (by norm_num) (by norm_num) _ (tripleR (mkSphere 0 0 0 1) (mkSphere 1 0 0 1) (mkSphere 0 1 0 1)) unit_spread
  have hA0 : ∀ d : Fin 3, areaVec (centreTri (mkSphere 0 0 0 1) (mkSphere 1 0 0 1) (mkSphere 0 1 0 1)) d = if d = 2 then 1 else 0 := by
    intro d
    fin_cases d <;> simp [areaVec, cross3, centreTri, toV3, mkSphere]
  have hpa : euclid 3 pv (mkSphere 0 0 0 1) ≤ 3 / 4 := by
    obtain ⟨o, e, ho⟩ := powerVertex_triple unit_spread dart
    rw [epv] at e
    have hy : IsPowerVertex (mkSphere 0 0 0 1) (mkSphere 1 0 0 1) (mkSphere 0 1 0 1) (mkSphere 0.5 0.5 0 0) := by
      refine ⟨?_, ?_, 0.5, 0.5, fun d hd => ?_⟩
      · unfold power; rw [euclid_sq, euclid_sq]; simp only [Finset.sum_range_succ, Finset.sum_range_zero, mkSphere]; norm_num
      · unfold power; rw [euclid_sq, euclid_sq]; simp only [Finset.sum_range_succ, Finset.sum_range_zero, mkSphere]; norm_num
      · interval_cases d <;> norm_num [mkSphere]
    have := (ho pv (by simpa using e.symm)).2 _ hy
    rw [euclid_congr3 (fun d hd => (this d hd).symm) (fun _ _ => rfl)]
    refine abs_le_of_sq_le_sq' ?_ (by norm_num) |>.2
    rw [euclid_sq]; simp only [Finset.sum_range_succ, Finset.sum_range_zero, mkSphere]; norm_num
  have hA : 1e-10 ≤ triArea (centreTri (mkSphere 0 0 0 1) (mkSphere 1 0 0 1) (mkSphere 0 1 0 1)) := by
    have e : triArea (centreTri (mkSphere 0 0 0 1) (mkSphere 1 0 0 1) (mkSphere 0 1 0 1)) = 0.5 * Real.sqrt (1 ^ 2) := by
      have h0 := hA0 0
      have h1 := hA0 1
      have h2 := hA0 2
      unfold areaVec at h0 h1 h2
      unfold triArea
      simp only [h0, h1, h2]
      rw [if_neg (by decide : ¬ (0 : Fin 3) = 2), if_neg (by decide : ¬ (1 : Fin 3) = 2), if_pos trivial]
      norm_num
    rw [e, Real.sqrt_sq (by norm_num)]; norm_num
  let env : SeedEnv := ⟨fun _ => dart, fun _ _ _ => 0, fun cs => (cs.length, 0), fun _ _ => false⟩
  obtain ⟨up, lo, e, pu, pl, -, -⟩ := hZ.run hm (env := env) (pv := pv) (fun _ => epv) (hpa.trans (by norm_num [mkSphere])) hA rfl rfl rfl
  refine ⟨Z, 1 / 2, env, up, lo, hZ.ok, ⟨?_, ?_⟩, ?_, hm, e, by simpa [SeedTree.points] using congrArg List.length pu, by simpa [SeedTree.points] using congrArg List.length pl⟩
  · intro i j k ht
    obtain ⟨rfl, rfl, rfl⟩ := hZ.meeting ht
    rw [hZ.at0, hZ.at1, hZ.at2]
    refine ⟨unit_spread, ?_⟩
    have l1 : len3 (toV3 (mkSphere 1 0 0 1 - mkSphere 0 0 0 1)) = 1 := by simp [len3, dot3, toV3, mkSphere]
    have l2 : len3 (toV3 (mkSphere 0 1 0 1 - mkSphere 0 0 0 1)) = 1 := by simp [len3, dot3, toV3, mkSphere]
    have l3 : len3 (areaVec (centreTri (mkSphere 0 0 0 1) (mkSphere 1 0 0 1) (mkSphere 0 1 0 1))) = 1 := by
      unfold len3 dot3; rw [hA0, hA0, hA0]; simp
    rw [l1, l2, l3]; norm_num
  · intro i j k ht n
    obtain ⟨rfl, rfl, rfl⟩ := hZ.meeting ht
    rw [hZ.at0, hZ.at1, hZ.at2]
    show powerVertexN 3 3 _ _ dart ≠ _
    rw [epv]; simp
  · intro cs sp hsp
    have : cs[cs.length]? = some sp := hsp
    simp at this

end VoroCrust
