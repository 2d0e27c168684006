import Verif.Props.CellComplete

/-!
# Seeds in general position: a case

The five seeds of `CellRun.tetrahedron` are in general position; the cell of the first is found and exact.
-/

namespace VoroCrust.CellRun

/-- The planes around the first seed, as a normal and an offset. -/
def planeQ : Wall → V3 × ℚ
  | Wall.box 0 => ((1, 0, 0), 2000)
  | Wall.box 1 => ((0, 1, 0), 2000)
  | Wall.box 2 => ((-1, 0, 0), 2000)
  | Wall.box 3 => ((0, -1, 0), 2000)
  | Wall.box 4 => ((0, 0, 1), 2000)
  | Wall.box _ => ((0, 0, -1), 2000)
  | Wall.pt z => (((seeds.getD z (0, 0, 0)).1 / 3, (seeds.getD z (0, 0, 0)).2.1 / 3, (seeds.getD z (0, 0, 0)).2.2 / 3), 3 / 2)

def crossQ (a b : V3) : V3 := (a.2.1 * b.2.2 - a.2.2 * b.2.1, a.2.2 * b.1 - a.1 * b.2.2, a.1 * b.2.1 - a.2.1 * b.1)

def scalarQ (a b : V3) : ℚ := a.1 * b.1 + a.2.1 * b.2.1 + a.2.2 * b.2.2

def detQ (a b c : V3) : ℚ := scalarQ a (crossQ b c)

/-- The value of the fourth plane at the common point of three, times their determinant. -/
def valueQ (a b c z : V3 × ℚ) : ℚ :=
  a.2 * scalarQ z.1 (crossQ b.1 c.1) + b.2 * scalarQ z.1 (crossQ c.1 a.1) + c.2 * scalarQ z.1 (crossQ a.1 b.1) - detQ a.1 b.1 c.1 * z.2

def opposite (a b : V3 × ℚ) : Bool := decide (a.1.1 + b.1.1 = 0 ∧ a.1.2.1 + b.1.2.1 = 0 ∧ a.1.2.2 + b.1.2.2 = 0 ∧ a.2 + b.2 ≠ 0)

def clearQ (a b c z : V3 × ℚ) : Bool :=
  opposite a b || opposite a c || opposite b c || decide (detQ a.1 b.1 c.1 = 0 ∧ valueQ a b c z ≠ 0) ||
    decide (detQ a.1 b.1 c.1 ≠ 0 ∧ (valueQ a b c z / detQ a.1 b.1 c.1 < 0 ∨ valueQ a b c z / detQ a.1 b.1 c.1 > 1e-10))

def allWalls : List Wall := [Wall.box 0, Wall.box 1, Wall.box 2, Wall.box 3, Wall.box 4, Wall.box 5, Wall.pt 1, Wall.pt 2, Wall.pt 3, Wall.pt 4]

theorem all_clear : (allWalls.all fun a => allWalls.all fun b => allWalls.all fun c => [1, 2, 3, 4].all fun z => decide (a = b) || decide (a = c) || decide (b = c) || decide (Wall.pt z = a) || decide (Wall.pt z = b) || decide (Wall.pt z = c) ||
    clearQ (planeQ a) (planeQ b) (planeQ c) (planeQ (Wall.pt z))) = true := by decide +kernel

/-- The value of a plane. -/
noncomputable def heightQ (p : V3 × ℚ) (v : Nat → ℝ) : ℝ := p.1.1 * v 0 + p.1.2.1 * v 1 + p.1.2.2 * v 2 - p.2

theorem cramer (a b c z : V3 × ℚ) (v : Nat → ℝ) (ha : heightQ a v = 0) (hb : heightQ b v = 0) (hc : heightQ c v = 0) : (detQ a.1 b.1 c.1 : ℝ) * heightQ z v = valueQ a b c z := by
  have ea : (a.2 : ℝ) = a.1.1 * v 0 + a.1.2.1 * v 1 + a.1.2.2 * v 2 := by unfold heightQ at ha; linarith
  have eb : (b.2 : ℝ) = b.1.1 * v 0 + b.1.2.1 * v 1 + b.1.2.2 * v 2 := by unfold heightQ at hb; linarith
  have ec : (c.2 : ℝ) = c.1.1 * v 0 + c.1.2.1 * v 1 + c.1.2.2 * v 2 := by unfold heightQ at hc; linarith
  unfold valueQ
  push_cast
  rw [ea, eb, ec]
  unfold detQ scalarQ crossQ heightQ
  push_cast
  ring

theorem opposite_false {a b : V3 × ℚ} {v : Nat → ℝ} (ha : heightQ a v = 0) (hb : heightQ b v = 0) : opposite a b = false := by
  unfold opposite
  rw [decide_eq_false_iff_not]
  rintro ⟨h0, h1, h2, h3⟩
  apply h3
  unfold heightQ at ha hb
  have e0 : (a.1.1 : ℝ) + b.1.1 = 0 := by exact_mod_cast h0
  have e1 : (a.1.2.1 : ℝ) + b.1.2.1 = 0 := by exact_mod_cast h1
  have e2 : (a.1.2.2 : ℝ) + b.1.2.2 = 0 := by exact_mod_cast h2
  have : (a.2 : ℝ) + b.2 = 0 := by linear_combination e0 * v 0 + e1 * v 1 + e2 * v 2 - ha - hb
  exact_mod_cast this

theorem clear_spec {a b c z : V3 × ℚ} {v : Nat → ℝ} (h : clearQ a b c z = true) (ha : heightQ a v = 0) (hb : heightQ b v = 0) (hc : heightQ c v = 0) : heightQ z v < 0 ∨ heightQ z v > 1e-10 := by
  have hC := cramer a b c z v ha hb hc
  unfold clearQ at h
  rw [opposite_false ha hb, opposite_false ha hc, opposite_false hb hc] at h
  simp only [Bool.false_or, Bool.or_eq_true, decide_eq_true_eq] at h
  rcases h with ⟨h1, h2⟩ | ⟨h1, h2⟩
  · rw [h1, Rat.cast_zero, zero_mul] at hC
    exact absurd (by exact_mod_cast hC.symm) h2
  · have hd : (detQ a.1 b.1 c.1 : ℝ) ≠ 0 := by exact_mod_cast h1
    have : heightQ z v = ((valueQ a b c z / detQ a.1 b.1 c.1 : ℚ) : ℝ) := by
      push_cast
      rw [eq_div_iff hd, mul_comm]
      exact hC
    rw [this]
    refine h2.imp (fun q => ?_) fun q => (tol_cast _).2 q
    have : ((valueQ a b c z / detQ a.1 b.1 c.1 : ℚ) : ℝ) < ((0 : ℚ) : ℝ) := Rat.cast_lt.2 q
    simpa using this

theorem sqrt_nine : Real.sqrt 9 = 3 := by rw [show (9 : ℝ) = 3 ^ 2 by norm_num]; exact Real.sqrt_sq (by norm_num)

/-- The seeds are in general position. -/
theorem general {pts : Nat → Nat → ℝ} (hp : ∀ i, i < 5 → pts i = cast (seeds.getD i (0, 0, 0))) : GeneralPos pts 5 (pts 0) 2000 := by
  have p0 := hp 0 (by norm_num)
  have p1 := hp 1 (by norm_num)
  have p2 := hp 2 (by norm_num)
  have p3 := hp 3 (by norm_num)
  have p4 := hp 4 (by norm_num)
  simp only [seeds, List.getD_cons_zero, List.getD_cons_succ] at p0 p1 p2 p3 p4
  have hw : ∀ {w}, SeedWall pts 5 (pts 0) w → w ∈ allWalls ∧ ∀ v, side (seedPl (pts 0) 2000 pts w).1 (seedPl (pts 0) 2000 pts w).2 v = heightQ (planeQ w) v := fun {w} h => by
    rcases h with ⟨k, hk, rfl⟩ | ⟨z, rfl, hz, hne⟩
    · refine ⟨by unfold allWalls; interval_cases k <;> simp, fun v => ?_⟩
      interval_cases k <;> simp [seedPl, boxPlane, boxNormal, side, heightQ, planeQ, p0, cast] <;> ring
    · interval_cases z
      · exact absurd (euclid_self 3 _) hne
      all_goals refine ⟨by simp [allWalls], fun v => ?_⟩
      all_goals norm_num [seedPl, bisector, midPoint, bisectorNormal, dotDiff, side, heightQ, planeQ, seeds, p0, p1, p2, p3, p4, cast, sqrt_nine] <;> ring
  intro a b c z v ha hb hc hab hac hbc hz hzx za zb zc oa ob oc
  have hz' : SeedWall pts 5 (pts 0) (Wall.pt z) := Or.inr ⟨z, rfl, hz, hzx⟩
  have hc' := all_clear
  simp only [List.all_eq_true] at hc'
  have := hc' a (hw ha).1 b (hw hb).1 c (hw hc).1 z (by
    have := (hw hz').1
    simp only [allWalls, List.mem_cons, Wall.pt.injEq, reduceCtorEq, false_or, List.not_mem_nil, or_false] at this
    simp only [List.mem_cons, List.not_mem_nil, or_false]
    exact this)
  simp only [hab, hac, hbc, za, zb, zc, decide_false, Bool.false_or] at this
  rw [(hw ha).2] at oa
  rw [(hw hb).2] at ob
  rw [(hw hc).2] at oc
  have r := clear_spec this oa ob oc
  rw [← (hw hz').2 v] at r
  exact r

/-- Not vacuous: the hypotheses of `C52_generic_partial` and `C51_generic_partial` hold for the first of the five seeds; a cell is returned, contains the middle and not the other seeds. -/
theorem generic_cell : ∃ (T : MTree) (F : Nat) (l : List CellCorner), CellTree T ∧ T.P.num = 5 ∧ GeneralPos T.P.pts T.P.num (T.P.pts 0) (10 * (100 * 2 ^ (0 + 1))) ∧ getCell T (fun _ => false) 0 F 1 100 = some (some l) ∧
    (∃ p ∈ convexHull ℝ {v | ∃ q ∈ l, q.x = v}, ∀ k, k < 3 → p k = T.P.pts 0 k) ∧ ¬ ∃ p ∈ convexHull ℝ {v | ∃ q ∈ l, q.x = v}, ∀ k, k < 3 → p k = T.P.pts 1 k := by
  obtain ⟨st, e, hn, hp, -⟩ := tree
  have hT : CellTree ⟨⟨st.pts, st.num, 3, realLt⟩, st.links, fun _ => none⟩ := ⟨⟨rfl, by norm_num, BuiltTree.inserted _ _ _ _ _ _ _ e (by simp [seeds])⟩, rfl⟩
  have hg : GeneralPos st.pts st.num (st.pts 0) (10 * (100 * 2 ^ (0 + 1))) := by
    rw [hn, show (10 * (100 * 2 ^ (0 + 1)) : ℝ) = 2000 by norm_num]
    exact general hp
  have p0 := hp 0 (by norm_num)
  have p1 := hp 1 (by norm_num)
  have p2 := hp 2 (by norm_num)
  have p3 := hp 3 (by norm_num)
  have p4 := hp 4 (by norm_num)
  simp only [seeds, List.getD_cons_zero, List.getD_cons_succ] at p0 p1 p2 p3 p4
  have hdist : ∀ z, z < st.num → euclid 3 (st.pts z) (st.pts 0) = 0 ∨ euclid 3 (st.pts z) (st.pts 0) = 3 := by
    intro z hz
    rw [hn] at hz
    interval_cases z
    · left; exact euclid_self 3 _
    all_goals right; norm_num [euclid, euclidSq, Finset.sum_range_succ, p0, p1, p2, p3, p4, cast, sqrt_nine]
  have hsep : ∀ z, z < st.num → euclid 3 (st.pts z) (st.pts 0) = 0 ∨ 2e-5 ≤ euclid 3 (st.pts z) (st.pts 0) := fun z hz => (hdist z hz).imp_right fun h => by rw [h]; norm_num
  obtain ⟨F, hF⟩ := C52_generic_partial _ hT (fun _ => false) 0 (by simp only [hn]; norm_num) hsep 0 100 (by norm_num) (fun m hm => by
    obtain rfl : m = 0 := by omega
    exact hg) (fun z hz => by
    simp only [hn] at hz
    have h1 := dist_mono.1 (hz 1 (by norm_num))
    have h2 := dist_mono.1 (hz 2 (by norm_num))
    have h3 := dist_mono.1 (hz 3 (by norm_num))
    have h4 := dist_mono.1 (hz 4 (by norm_num))
    simp only [p0, p1, p2, p3, p4, distSq3, cast0, cast1, cast2] at h1 h2 h3 h4
    norm_num at h1 h2 h3 h4
    have a1 : 2 * z 0 + 2 * z 1 + z 2 ≤ 4.5 := by norm_num; linarith
    have a2 : 2 * z 0 - 2 * z 1 - z 2 ≤ 4.5 := by norm_num; linarith
    have a3 : -2 * z 0 + z 1 - 2 * z 2 ≤ 4.5 := by norm_num; linarith
    have a4 : -2 * z 0 - z 1 + 2 * z 2 ≤ 4.5 := by norm_num; linarith
    norm_num at a1 a2 a3 a4
    have b0 : |z 0| ≤ 18 := abs_le.2 ⟨by linarith, by linarith⟩
    have b1 : |z 1| ≤ 18 := abs_le.2 ⟨by linarith, by linarith⟩
    have b2 : |z 2| ≤ 18 := abs_le.2 ⟨by linarith, by linarith⟩
    have c0 := sq_le_sq' (abs_le.1 b0).1 (abs_le.1 b0).2
    have c1 := sq_le_sq' (abs_le.1 b1).1 (abs_le.1 b1).2
    have c2 := sq_le_sq' (abs_le.1 b2).1 (abs_le.1 b2).2
    have hd : distSq3 z (st.pts 0) ≤ 40 ^ 2 := by
      simp only [p0, distSq3, cast0, cast1, cast2]
      norm_num
      linarith
    have : euclid 3 z (st.pts 0) ≤ 40 := by rw [← sqrt_distSq3]; exact Real.sqrt_le_iff.2 ⟨by norm_num, hd⟩
    norm_num
    linarith)
  obtain ⟨l, hl⟩ := hF F 1 (le_refl _) (by norm_num)
  have hex := C51_generic_partial _ hT (fun _ => false) 0 F 1 100 (by norm_num) l hl (fun m hm => by
    obtain rfl : m = 0 := by omega
    exact hg) hsep
  refine ⟨_, F, l, hT, hn, hg, hl, (hex _).2 fun y _ => ?_, fun h => ?_⟩
  · rw [euclid_self]; exact euclid_nonneg 3 _ _
  · have := (hex _).1 h 1 (by simp only [hn]; norm_num)
    rw [euclid_self] at this
    have q : euclid 3 (st.pts 1) (st.pts 0) = 3 := by norm_num [euclid, euclidSq, Finset.sum_range_succ, p0, p1, cast, sqrt_nine]
    simp only [q] at this
    norm_num at this

end VoroCrust.CellRun
