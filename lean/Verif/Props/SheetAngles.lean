import Verif.Props.Sheets
import Mathlib.Analysis.SpecialFunctions.Trigonometric.Bounds

/-! # C86: the angles by which the sheets are sorted -/

namespace VoroCrust

open Classical

/-! ## `get_point_angle` -/

/-- The point is not within the tolerance of the axes that the code treats as the positive side. -/
def ClearPoint (x y : ℝ) : Prop := (0 ≤ x ∨ x ≤ -1e-10) ∧ (0 ≤ y ∨ y ≤ -1e-10) ∧ (1e-10 ≤ |x| ∨ 1e-10 ≤ |y|)

/-- `θ` is the polar angle of the point, in `[0, 2π)`. -/
def PolarAngle (x y θ : ℝ) : Prop := 0 ≤ θ ∧ θ < 2 * Real.pi ∧ ∃ r, 0 < r ∧ x = r * Real.cos θ ∧ y = r * Real.sin θ

theorem polar_quadrant {X Y : ℝ} (hX : 0 ≤ X) (hY : 0 ≤ Y) (h : X ≠ 0 ∨ Y ≠ 0) :
    0 ≤ (if X > Y then Real.arctan (Y / X) else 0.5 * Real.pi - Real.arctan (X / Y)) ∧ (if X > Y then Real.arctan (Y / X) else 0.5 * Real.pi - Real.arctan (X / Y)) ≤ Real.pi / 2 ∧
      ∃ r, 0 < r ∧ X = r * Real.cos (if X > Y then Real.arctan (Y / X) else 0.5 * Real.pi - Real.arctan (X / Y)) ∧
        Y = r * Real.sin (if X > Y then Real.arctan (Y / X) else 0.5 * Real.pi - Real.arctan (X / Y)) := by
  have hpi : (0.5 : ℝ) * Real.pi = Real.pi / 2 := by ring
  by_cases hXY : X > Y
  · simp only [if_pos hXY]
    have hX0 : 0 < X := lt_of_le_of_lt hY hXY
    have hs : 0 < Real.sqrt (1 + (Y / X) ^ 2) := Real.sqrt_pos.2 (by positivity)
    refine ⟨Real.arctan_nonneg.2 (by positivity), (Real.arctan_lt_pi_div_two _).le, X * Real.sqrt (1 + (Y / X) ^ 2), by positivity, ?_, ?_⟩
    · rw [Real.cos_arctan]; field_simp
    · rw [Real.sin_arctan]; field_simp
  · simp only [if_neg hXY]
    have hY0 : 0 < Y := by
      rcases h with h | h
      · exact lt_of_lt_of_le (lt_of_le_of_ne hX (Ne.symm h)) (not_lt.1 hXY)
      · exact lt_of_le_of_ne hY (Ne.symm h)
    have hs : 0 < Real.sqrt (1 + (X / Y) ^ 2) := Real.sqrt_pos.2 (by positivity)
    have h1 := Real.arctan_lt_pi_div_two (X / Y)
    have h2 : 0 ≤ Real.arctan (X / Y) := Real.arctan_nonneg.2 (by positivity)
    rw [hpi]
    refine ⟨by linarith, by linarith, Y * Real.sqrt (1 + (X / Y) ^ 2), by positivity, ?_, ?_⟩
    · rw [Real.cos_pi_div_two_sub, Real.sin_arctan]; field_simp
    · rw [Real.sin_pi_div_two_sub, Real.cos_arctan]; field_simp

/-- **C86.** Outside the tolerance, `get_point_angle` returns the polar angle of the point, in `[0, 2π)`. -/
theorem C86_point_angle_partial (x y : ℝ) (h : ClearPoint x y) : ∃ θ : ℝ, pointAngle x y = (θ : WithTop ℝ) ∧ PolarAngle x y θ := by
  obtain ⟨hx, hy, hxy⟩ := h
  have hne : |x| ≠ 0 ∨ |y| ≠ 0 := by
    rcases hxy with h | h
    · exact Or.inl (by linarith [abs_nonneg x] : (0 : ℝ) < |x|).ne'
    · exact Or.inr (by linarith [abs_nonneg y] : (0 : ℝ) < |y|).ne'
  obtain ⟨q1, q2, r, hr, qx, qy⟩ := polar_quadrant (abs_nonneg x) (abs_nonneg y) hne
  unfold pointAngle
  rw [if_neg (by rintro ⟨a, b⟩; rcases hxy with h | h <;> linarith)]
  simp only
  set φ := if |x| > |y| then Real.arctan (|y| / |x|) else 0.5 * Real.pi - Real.arctan (|x| / |y|) with hφ
  have hpi := Real.pi_pos
  rcases hx with hx | hx <;> rcases hy with hy | hy
  · rw [if_pos ⟨by linarith, by linarith⟩]
    rw [abs_of_nonneg hx] at qx
    rw [abs_of_nonneg hy] at qy
    exact ⟨φ, rfl, q1, by linarith, r, hr, qx, qy⟩
  · rw [if_neg (by rintro ⟨a, b⟩; linarith), if_pos (by linarith)]
    rw [abs_of_nonneg hx] at qx
    rw [abs_of_nonpos (by linarith)] at qy
    refine ⟨2 * Real.pi - φ, rfl, by linarith, ?_, r, hr, ?_, ?_⟩
    · have : φ ≠ 0 := by
        intro e
        rw [e, Real.sin_zero] at qy
        linarith
      have := lt_of_le_of_ne q1 (Ne.symm this)
      linarith
    · rw [Real.cos_two_pi_sub]; exact qx
    · rw [Real.sin_two_pi_sub]; linarith
  · rw [if_neg (by rintro ⟨a, b⟩; linarith), if_neg (by linarith), if_pos (by linarith)]
    rw [abs_of_nonpos (by linarith)] at qx
    rw [abs_of_nonneg hy] at qy
    refine ⟨Real.pi - φ, rfl, by linarith, by linarith, r, hr, ?_, ?_⟩
    · rw [Real.cos_pi_sub]; linarith
    · rw [Real.sin_pi_sub]; exact qy
  · rw [if_neg (by rintro ⟨a, b⟩; linarith), if_neg (by linarith), if_neg (by linarith)]
    rw [abs_of_nonpos (by linarith)] at qx qy
    refine ⟨Real.pi + φ, rfl, by linarith, by linarith, r, hr, ?_, ?_⟩
    · rw [add_comm, Real.cos_add_pi]; linarith
    · rw [add_comm, Real.sin_add_pi]; linarith

theorem PolarAngle.unique {x y θ φ : ℝ} (h : PolarAngle x y θ) (k : PolarAngle x y φ) : θ = φ := by
  obtain ⟨h1, h2, r, hr, hx, hy⟩ := h
  obtain ⟨k1, k2, q, hq, kx, ky⟩ := k
  have hrq : r = q := by
    have e1 : x * x + y * y = r * r := by
      rw [hx, hy]; nlinarith [Real.sin_sq_add_cos_sq θ]
    have e2 : x * x + y * y = q * q := by
      rw [kx, ky]; nlinarith [Real.sin_sq_add_cos_sq φ]
    nlinarith [mul_self_inj hr.le hq.le |>.1 (e1.symm.trans e2)]
  subst hrq
  have hc : Real.cos θ = Real.cos φ := mul_left_cancel₀ hr.ne' (hx.symm.trans kx)
  have hs : Real.sin θ = Real.sin φ := mul_left_cancel₀ hr.ne' (hy.symm.trans ky)
  have hd : Real.cos (θ - φ) = 1 := by
    rw [Real.cos_sub, hc, hs]; nlinarith [Real.sin_sq_add_cos_sq φ]
  obtain ⟨n, hn⟩ := (Real.cos_eq_one_iff _).1 hd
  have hpi := Real.pi_pos
  have hn0 : n = 0 := by
    have a1 : (n : ℝ) * (2 * Real.pi) < 1 * (2 * Real.pi) := by linarith
    have a2 : (-1 : ℝ) * (2 * Real.pi) < n * (2 * Real.pi) := by linarith
    have b1 := lt_of_mul_lt_mul_right a1 (by positivity)
    have b2 := lt_of_mul_lt_mul_right a2 (by positivity)
    have c1 : n < 1 := by exact_mod_cast b1
    have c2 : -1 < n := by exact_mod_cast b2
    omega
  rw [hn0] at hn
  simp at hn
  linarith

/-- **C86, false within the tolerance.** Two points close to the second axis get angles in the wrong order: the one at the larger polar angle gets the smaller angle. -/
theorem C86_tolerance_false : ∃ x y x' y' θ θ' : ℝ, PolarAngle x y θ ∧ PolarAngle x' y' θ' ∧ θ < θ' ∧ pointAngle x' y' < pointAngle x y := by
  obtain ⟨θ, e, hp⟩ := C86_point_angle_partial 0 1 ⟨Or.inl le_rfl, Or.inl (by norm_num), Or.inr (by norm_num)⟩
  have hpi := Real.pi_pos
  have hcos : Real.cos (Real.pi / 2) = 0 := Real.cos_pi_div_two
  have hθ : θ = Real.pi / 2 := hp.unique ⟨by linarith, by linarith, 1, one_pos, by simp, by simp⟩
  have hpos : 0 < Real.arctan 1e-11 := by
    have := Real.arctan_strictMono (show (0 : ℝ) < 1e-11 by norm_num)
    rwa [Real.arctan_zero] at this
  have hlt := Real.arctan_lt_pi_div_two 1e-11
  refine ⟨0, 1, -1e-11, 1, θ, Real.pi / 2 + Real.arctan 1e-11, hp, ⟨by linarith, by linarith, Real.sqrt (1 + 1e-11 ^ 2), Real.sqrt_pos.2 (by positivity), ?_, ?_⟩, by linarith, ?_⟩
  · have hs : Real.sqrt (1 + 1e-11 ^ 2) ≠ 0 := (Real.sqrt_pos.2 (by positivity)).ne'
    rw [add_comm (Real.pi / 2), Real.cos_add_pi_div_two, Real.sin_arctan]; field_simp
  · have hs : Real.sqrt (1 + 1e-11 ^ 2) ≠ 0 := (Real.sqrt_pos.2 (by positivity)).ne'
    rw [add_comm (Real.pi / 2), Real.sin_add_pi_div_two, Real.cos_arctan]; field_simp
  · rw [e, hθ]
    unfold pointAngle
    rw [if_neg (by norm_num)]
    simp only
    have h1 : |(-1e-11 : ℝ)| = 1e-11 := by rw [abs_neg, abs_of_pos (by norm_num)]
    have h2 : |(1 : ℝ)| = 1 := abs_one
    rw [h1, h2, if_pos (by norm_num), if_neg (by norm_num), div_one]
    have : 0.5 * Real.pi - Real.arctan 1e-11 < Real.pi / 2 := by linarith
    exact_mod_cast this

/-! ## The angles of the sheets -/

/-- The first coordinate of sphere `j` in the plane perpendicular to the edge from `i` to `nb`, along the direction of the sphere `j0`. -/
noncomputable def sheetX (F : FanEnv) (i nb j0 j : Nat) : ℝ :=
  dot3 (areaVec ![F.sphere i, F.sphere nb, F.sphere j0]) (areaVec ![F.sphere i, F.sphere nb, F.sphere j]) /
    (len3 (fun d => F.sphere nb d - F.sphere i d) * len3 (areaVec ![F.sphere i, F.sphere nb, F.sphere j0]))

/-- The second coordinate, a quarter turn further around the edge. -/
noncomputable def sheetY (F : FanEnv) (i nb j0 j : Nat) : ℝ :=
  dot3 (fun d => F.sphere nb d - F.sphere i d) (cross3 (fun d => F.sphere j0 d - F.sphere i d) (fun d => F.sphere j d - F.sphere i d)) /
    len3 (areaVec ![F.sphere i, F.sphere nb, F.sphere j0])

/-- `θ` is the angle around the edge from `i` to `nb`, counted from the sphere `j0` to the sphere `j`. -/
def SheetAngle (F : FanEnv) (i nb j0 j : Nat) (θ : ℝ) : Prop := PolarAngle (sheetX F i nb j0 j) (sheetY F i nb j0 j) θ

theorem lagrange3 (a w z : V3) : dot3 (cross3 a w) (cross3 a z) = dot3 a a * dot3 w z - dot3 a w * dot3 a z := by
  unfold dot3 cross3
  simp
  ring

theorem codeAngle_coords (F : FanEnv) (i nb j0 j : Nat) (h : ∃ d, areaVec ![F.sphere i, F.sphere nb, F.sphere j0] d ≠ 0) :
    codeAngle F i nb j0 j = pointAngle (sheetX F i nb j0 j) (sheetY F i nb j0 j) := by
  unfold codeAngle
  rw [edgeFrame_some h]
  simp only
  set a : V3 := fun d => F.sphere nb d - F.sphere i d with ha
  set w : V3 := fun d => F.sphere j0 d - F.sphere i d with hw
  set z : V3 := fun d => F.sphere j d - F.sphere i d with hz
  have e0 : areaVec ![F.sphere i, F.sphere nb, F.sphere j0] = cross3 a w := rfl
  have e1 : areaVec ![F.sphere i, F.sphere nb, F.sphere j] = cross3 a z := rfl
  rw [e0] at h
  unfold sheetX sheetY
  rw [e0, e1, lagrange3]
  have hA : 0 < dot3 (cross3 a w) (cross3 a w) := by
    refine lt_of_le_of_ne (dot3_self_nonneg _) fun e => ?_
    obtain ⟨d, hd⟩ := h
    exact hd (zero_of_dot3 e.symm d)
  have hLag := lagrange3 a w w
  have haa : 0 < dot3 a a := by
    refine lt_of_le_of_ne (dot3_self_nonneg _) fun e => ?_
    have h0 := zero_of_dot3 e.symm
    have : dot3 a w = 0 := by unfold dot3; rw [h0 0, h0 1, h0 2]; ring
    rw [← e, this] at hLag
    linarith
  set p := Real.sqrt (dot3 a a) with hp
  have hp0 : 0 < p := Real.sqrt_pos.2 haa
  have hpp : p * p = dot3 a a := Real.mul_self_sqrt haa.le
  set q := Real.sqrt (dot3 (cross3 a w) (cross3 a w)) with hq
  have hq0 : 0 < q := Real.sqrt_pos.2 hA
  have hqq : q * q = dot3 (cross3 a w) (cross3 a w) := Real.mul_self_sqrt hA.le
  have el1 : len3 a = p := rfl
  have el2 : len3 (cross3 a w) = q := rfl
  rw [el1, el2]
  -- the part of `w` perpendicular to the edge
  have hdw : dot3 w (fun d => a d / p) = dot3 a w / p := by unfold dot3; ring
  rw [hdw]
  set b : V3 := fun d => w d - dot3 a w / p * (a d / p) with hb
  have hbb : dot3 b b = (q / p) * (q / p) := by
    have : dot3 b b = dot3 w w - 2 * (dot3 a w / p / p) * dot3 a w + (dot3 a w / p / p) * (dot3 a w / p / p) * dot3 a a := by
      rw [hb]; unfold dot3; ring
    rw [this, show q / p * (q / p) = q * q / (p * p) by rw [div_mul_div_comm], hqq, hLag, ← hpp]
    field_simp
    ring
  have hlen : Real.sqrt (dot3 b b) = q / p := by rw [hbb]; exact Real.sqrt_mul_self (by positivity)
  rw [hlen]
  congr 1
  · have : dot3 z (fun d => b d / (q / p)) = (dot3 w z - dot3 a w / p * (dot3 a z / p)) / (q / p) := by
      rw [hb]; unfold dot3; ring
    rw [this, ← hpp]
    field_simp
  · have : dot3 z (cross3 (fun d => a d / p) fun d => b d / (q / p)) = dot3 a (cross3 w z) / p / (q / p) := by
      rw [hb]; unfold dot3 cross3
      simp
      ring
    rw [this, div_div, show p * (q / p) = q by field_simp]

theorem nextSheet_congr {α β : Type} [LinearOrder α] [LinearOrder β] {F : FanEnv} {i nb : Nat} {θ : Nat → α} {φ : Nat → β}
    (h : ∀ j k, FanLinked F i nb j → FanLinked F i nb k → (θ j < θ k ↔ φ j < φ k)) (j k : Nat) : NextSheet F i nb θ j k ↔ NextSheet F i nb φ j k := by
  unfold NextSheet
  refine and_congr_right fun hj => and_congr_right fun hk => or_congr (and_congr (h j k hj hk) ?_) (and_congr ?_ ?_)
  · refine forall_congr' fun x => forall_congr' fun hx => not_congr (and_congr (h j x hj hx) (h x k hx hk))
  · refine forall_congr' fun x => forall_congr' fun hx => ?_
    rw [← not_lt, ← not_lt, h j x hj hx]
  · refine forall_congr' fun x => forall_congr' fun hx => ?_
    rw [← not_lt, ← not_lt, h x k hx hk]

theorem sameSector_congr {α β : Type} [LinearOrder α] [LinearOrder β] {F : FanEnv} {ns i nb : Nat} {θ : Nat → α} {φ : Nat → β}
    (h : ∀ j k, FanLinked F i nb j → FanLinked F i nb k → (θ j < θ k ↔ φ j < φ k)) (s t : Nat) : SameSector F ns i nb θ s t ↔ SameSector F ns i nb φ s t := by
  unfold SameSector
  simp only [nextSheet_congr h]

/-- **C85, sectors.** Around an edge sphere whose triangles form sheets at different angles around the edge, none of them within the tolerance of the axes, two seeds get the same
mark exactly if they lie in the same sector between two sheets that follow each other around the edge. -/
theorem C85_sectors_partial (F : FanEnv) (ns i : Nat) (l : List Nat) (h : PairsAround F i l) (hex : ∃ nb v, ns ≤ nb ∧ FanLinked F i nb v)
    (hS : ∀ nb v, ns ≤ nb → FanLinked F i nb v → Sheaf F ns i nb)
    (hclear : ∀ nb j0 j, ns ≤ nb → FanLinked F i nb j0 → FanLinked F i nb j → ClearPoint (sheetX F i nb j0 j) (sheetY F i nb j0 j))
    (hθ : ∀ nb j0 j k θ, ns ≤ nb → FanLinked F i nb j0 → FanLinked F i nb j → FanLinked F i nb k → SheetAngle F i nb j0 j θ → SheetAngle F i nb j0 k θ → j = k) (c : Nat → Nat) :
    ∃ nb j0 α c', ns ≤ nb ∧ FanLinked F i nb j0 ∧ (∀ j, FanLinked F i nb j → SheetAngle F i nb j0 j (α j)) ∧ markEdge F ns i l (l.length + 1) c = some (some c') ∧
      (∀ s ∈ l, ∀ t ∈ l, c' s = c' t ↔ SameSector F ns i nb α s t) ∧ ∀ x, x ∉ l → c' x = c x := by
  have hang : ∀ nb j0 j, ns ≤ nb → FanLinked F i nb j0 → FanLinked F i nb j → ∃ θ : ℝ, codeAngle F i nb j0 j = (θ : WithTop ℝ) ∧ SheetAngle F i nb j0 j θ := by
    intro nb j0 j hf h0 hj
    rw [codeAngle_coords F i nb j0 j (area_ne_of_around h h0)]
    exact C86_point_angle_partial _ _ (hclear nb j0 j hf h0 hj)
  obtain ⟨nb, j0, c', hf, h0, e, hm, ho⟩ := C85_edge_marks_partial F ns i l h hex hS (fun nb j0 hf h0 j k hj hk he => by
    obtain ⟨θ, e1, h1⟩ := hang nb j0 j hf h0 hj
    obtain ⟨φ, e2, h2⟩ := hang nb j0 k hf h0 hk
    rw [e1, e2] at he
    have : θ = φ := by exact_mod_cast he
    subst this
    exact hθ nb j0 j k θ hf h0 hj hk h1 h2) c
  choose! α hα using fun j hj => hang nb j0 j hf h0 hj
  refine ⟨nb, j0, α, c', hf, h0, fun j hj => (hα j hj).2, e, fun s hs t ht => (hm s hs t ht).trans (sameSector_congr (fun j k hj hk => ?_) s t), ho⟩
  rw [(hα j hj).1, (hα k hk).1]
  exact WithTop.coe_lt_coe

end VoroCrust
