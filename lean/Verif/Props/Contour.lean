import Verif.Model.Contour
import Mathlib.Tactic.FieldSimp
import Mathlib.Tactic.Ring
import Mathlib.Tactic.Positivity

/-!
# Properties of the contour plots (C123, C124)
-/

namespace VoroCrust

/-! ## Specification -/

/-- The value on a side of length `s`, linear from `a` to `b`, at the distance `t` from the first corner. -/
noncomputable def linearOn (s a b t : ℝ) : ℝ := a + (b - a) * (t / s)

/-- The part of a side that belongs to the polygon: what is between two of its vertices on the side, where the next corner counts as a vertex if it is one. -/
def DrawnOn (pts : List ℝ) (s : ℝ) (next : Prop) (t : ℝ) : Prop :=
  ∃ p q : ℝ, (p ∈ pts ∨ (next ∧ p = s)) ∧ (q ∈ pts ∨ (next ∧ q = s)) ∧ p ≤ t ∧ t ≤ q

/-- The point at the distance `u` along the boundary of a rectangle, anticlockwise from its lower left corner. -/
noncomputable def alongRect (xo yo sx sy u : ℝ) : ℝ × ℝ :=
  if u < sx then (xo + u, yo)
  else if u < sx + sy then (xo + sx, yo + (u - sx))
  else if u < sx + sy + sx then (xo + sx - (u - sx - sy), yo + sy)
  else (xo, yo + sy - (u - sx - sy - sx))

/-- The value there, linear on each side between the values of the corners. -/
noncomputable def valueAlong (sx sy fo f1 f2 f3 u : ℝ) : ℝ :=
  if u < sx then linearOn sx fo f1 u
  else if u < sx + sy then linearOn sy f1 f2 (u - sx)
  else if u < sx + sy + sx then linearOn sx f2 f3 (u - sx - sy)
  else linearOn sy f3 fo (u - sx - sy - sx)

/-- A point of the boundary belongs to the polygon with the vertices at `us`: it is between two of them on one side, which begins at `d` and has the length `s`.  The end of the boundary is its beginning. -/
def DrawnAlong (us : List ℝ) (perimeter d s u : ℝ) : Prop :=
  ∃ p q : ℝ, (p ∈ us ∨ (0 ∈ us ∧ p = perimeter)) ∧ (q ∈ us ∨ (0 ∈ us ∧ q = perimeter)) ∧ d ≤ p ∧ q ≤ d + s ∧ p ≤ u ∧ u ≤ q

/-! ## Lemmas -/

theorem cross_between (s c a b : ℝ) (hs : 0 < s) (h : Crosses c a b) : 0 < s * (c - a) / (b - a) ∧ s * (c - a) / (b - a) < s ∧ linearOn s a b (s * (c - a) / (b - a)) = c := by
  have hne : b - a ≠ 0 := by
    rcases h with ⟨h1, h2⟩ | ⟨h1, h2⟩ <;> intro h0 <;> linarith
  have hf : 0 < (c - a) / (b - a) ∧ (c - a) / (b - a) < 1 := by
    rcases h with ⟨h1, h2⟩ | ⟨h1, h2⟩
    · have h3 : b - a < 0 := by linarith
      constructor
      · exact div_pos_of_neg_of_neg (by linarith) h3
      · rw [div_lt_one_of_neg h3]
        linarith
    · have h3 : 0 < b - a := by linarith
      constructor
      · exact div_pos (by linarith) h3
      · rw [div_lt_one h3]
        linarith
  have he : s * (c - a) / (b - a) = s * ((c - a) / (b - a)) := by ring
  refine ⟨?_, ?_, ?_⟩
  · rw [he]
    exact mul_pos hs hf.1
  · rw [he]
    nlinarith [hf.2]
  · unfold linearOn
    field_simp
    ring

theorem sidePoints_mem (cm c s a b : ℝ) (hs : 0 < s) (h : ℝ) (hh : h ∈ sidePoints cm c s a b) :
    0 ≤ h ∧ h < s ∧ ((h = 0 ∧ cm - 1e-10 ≤ a ∧ a < c + 1e-10) ∨ linearOn s a b h = c ∨ linearOn s a b h = cm) := by
  unfold sidePoints at hh
  by_cases h1 : a ≥ cm - 1e-10 ∧ a < c + 1e-10
  · rw [if_pos h1] at hh
    rcases List.mem_cons.1 hh with h2 | h2
    · exact ⟨by linarith, by linarith, Or.inl ⟨h2, h1.1, h1.2⟩⟩
    · by_cases h3 : Crosses c a b
      · rw [if_pos h3, List.mem_singleton] at h2
        have := cross_between s c a b hs h3
        rw [h2]
        exact ⟨this.1.le, this.2.1, Or.inr (Or.inl this.2.2)⟩
      · rw [if_neg h3] at h2
        by_cases h4 : Crosses cm a b
        · rw [if_pos h4, List.mem_singleton] at h2
          have := cross_between s cm a b hs h4
          rw [h2]
          exact ⟨this.1.le, this.2.1, Or.inr (Or.inr this.2.2)⟩
        · rw [if_neg h4] at h2
          simp at h2
  · rw [if_neg h1] at hh
    by_cases h4 : Crosses cm a b
    · rw [if_pos h4] at hh
      have hm := cross_between s cm a b hs h4
      by_cases h3 : Crosses c a b
      · have hc := cross_between s c a b hs h3
        simp only [if_pos h3] at hh
        by_cases h5 : s * (c - a) / (b - a) < s * (cm - a) / (b - a)
        · simp only [if_pos h5] at hh
          rcases List.mem_cons.1 hh with h2 | h2
          · rw [h2]
            exact ⟨hc.1.le, hc.2.1, Or.inr (Or.inl hc.2.2)⟩
          · split_ifs at h2
            · rw [List.mem_singleton] at h2
              rw [h2]
              exact ⟨hm.1.le, hm.2.1, Or.inr (Or.inr hm.2.2)⟩
            · simp at h2
        · simp only [if_neg h5] at hh
          rcases List.mem_cons.1 hh with h2 | h2
          · rw [h2]
            exact ⟨hm.1.le, hm.2.1, Or.inr (Or.inr hm.2.2)⟩
          · split_ifs at h2
            · rw [List.mem_singleton] at h2
              rw [h2]
              exact ⟨hc.1.le, hc.2.1, Or.inr (Or.inl hc.2.2)⟩
            · simp at h2
      · simp only [if_neg h3, lt_irrefl, if_false, sub_self] at hh
        rcases List.mem_cons.1 hh with h2 | h2
        · rw [h2]
          exact ⟨hm.1.le, hm.2.1, Or.inr (Or.inr hm.2.2)⟩
        · split_ifs at h2
          · rw [List.mem_singleton] at h2
            rw [h2]
            exact ⟨hm.1.le, hm.2.1, Or.inr (Or.inr hm.2.2)⟩
          · simp at h2
    · rw [if_neg h4] at hh
      by_cases h3 : Crosses c a b
      · rw [if_pos h3, List.mem_singleton] at hh
        have := cross_between s c a b hs h3
        rw [hh]
        exact ⟨this.1.le, this.2.1, Or.inr (Or.inl this.2.2)⟩
      · rw [if_neg h3] at hh
        simp at hh

theorem pair_sorted (x y : ℝ) : (x :: (if y - x > 1e-10 then [y] else [])).Pairwise (· < ·) := by
  by_cases h5 : y - x > 1e-10
  · rw [if_pos h5]
    have : x < y := by norm_num at h5; linarith
    simpa using this
  · rw [if_neg h5]
    simp

theorem sidePoints_sorted (cm c s a b : ℝ) (hs : 0 < s) : (sidePoints cm c s a b).Pairwise (· < ·) := by
  unfold sidePoints
  by_cases h1 : a ≥ cm - 1e-10 ∧ a < c + 1e-10
  · rw [if_pos h1]
    by_cases h3 : Crosses c a b
    · rw [if_pos h3]
      simpa using (cross_between s c a b hs h3).1
    · rw [if_neg h3]
      by_cases h4 : Crosses cm a b
      · rw [if_pos h4]
        simpa using (cross_between s cm a b hs h4).1
      · rw [if_neg h4]
        simp
  · rw [if_neg h1]
    by_cases h4 : Crosses cm a b
    · rw [if_pos h4]
      exact pair_sorted _ _
    · rw [if_neg h4]
      split_ifs <;> simp

theorem linearOn_mono (s a b : ℝ) (hs : 0 < s) (p t q : ℝ) (h1 : p ≤ t) (h2 : t ≤ q) (l u : ℝ) (hp : l ≤ linearOn s a b p ∧ linearOn s a b p ≤ u) (hq : l ≤ linearOn s a b q ∧ linearOn s a b q ≤ u) :
    l ≤ linearOn s a b t ∧ linearOn s a b t ≤ u := by
  unfold linearOn at *
  have e1 : p / s ≤ t / s := by gcongr
  have e2 : t / s ≤ q / s := by gcongr
  rcases le_total 0 (b - a) with h | h
  · constructor <;> nlinarith [mul_le_mul_of_nonneg_left e1 h, mul_le_mul_of_nonneg_left e2 h]
  · constructor <;> nlinarith [mul_le_mul_of_nonpos_left e1 h, mul_le_mul_of_nonpos_left e2 h]

theorem linear_le_up (s a b c t : ℝ) (hs : 0 < s) (hab : a < b) : linearOn s a b t ≤ c ↔ t ≤ s * (c - a) / (b - a) := by
  have h : 0 < b - a := by linarith
  unfold linearOn
  rw [le_div_iff₀ h]
  have e : t * (b - a) = s * ((b - a) * (t / s)) := by field_simp
  rw [e]
  constructor
  · intro h1; nlinarith
  · intro h1
    have := le_of_mul_le_mul_left h1 hs
    linarith

theorem linear_ge_up (s a b c t : ℝ) (hs : 0 < s) (hab : a < b) : c ≤ linearOn s a b t ↔ s * (c - a) / (b - a) ≤ t := by
  have h : 0 < b - a := by linarith
  unfold linearOn
  rw [div_le_iff₀ h]
  have e : t * (b - a) = s * ((b - a) * (t / s)) := by field_simp
  rw [e]
  constructor
  · intro h1; nlinarith
  · intro h1
    have := le_of_mul_le_mul_left h1 hs
    linarith

theorem linearOn_neg (s a b t : ℝ) : linearOn s (-a) (-b) t = -linearOn s a b t := by
  unfold linearOn
  ring

theorem cross_neg (s a b c : ℝ) : s * (-c - -a) / (-b - -a) = s * (c - a) / (b - a) := by
  have e : -b - -a = -(b - a) := by ring
  have e' : s * (-c - -a) = -(s * (c - a)) := by ring
  rw [e, e', neg_div_neg_eq]

theorem linear_le_down (s a b c t : ℝ) (hs : 0 < s) (hab : b < a) : linearOn s a b t ≤ c ↔ s * (c - a) / (b - a) ≤ t := by
  have := linear_ge_up s (-a) (-b) (-c) t hs (by linarith)
  rw [linearOn_neg, cross_neg] at this
  rw [← this]
  constructor <;> intro h <;> linarith

theorem linear_ge_down (s a b c t : ℝ) (hs : 0 < s) (hab : b < a) : c ≤ linearOn s a b t ↔ t ≤ s * (c - a) / (b - a) := by
  have := linear_le_up s (-a) (-b) (-c) t hs (by linarith)
  rw [linearOn_neg, cross_neg] at this
  rw [← this]
  constructor <;> intro h <;> linarith

/-- Two crossings on a side: what is between them is drawn, up to the tolerance. -/
theorem drawn_pair (s x y t : ℝ) (next : Prop) (h1 : x ≤ t) (h2 : t ≤ y) : ∃ t' : ℝ, |t - t'| ≤ 1e-10 ∧ DrawnOn (x :: (if y - x > 1e-10 then [y] else [])) s next t' := by
  by_cases h5 : y - x > 1e-10
  · refine ⟨t, by norm_num, x, y, Or.inl (by simp), Or.inl ?_, h1, h2⟩
    rw [if_pos h5]
    simp
  · refine ⟨x, ?_, x, x, Or.inl (by simp), Or.inl (by simp), le_refl _, le_refl _⟩
    rw [abs_of_nonneg (by linarith)]
    linarith

theorem sidePoints_complete (cm c s a b t : ℝ) (hs : 0 < s) (hc : cm ≤ c) (ha : ¬ (c < a ∧ a < c + 1e-10)) (h0 : 0 ≤ t) (h1 : t ≤ s) (hv : cm ≤ linearOn s a b t ∧ linearOn s a b t ≤ c) :
    ∃ t' : ℝ, |t - t'| ≤ 1e-10 ∧ DrawnOn (sidePoints cm c s a b) s (cm - 1e-10 ≤ b ∧ b < c + 1e-10) t' := by
  have eps : (0 : ℝ) < 1e-10 := by norm_num
  have self : ∀ t : ℝ, |t - t| ≤ 1e-10 := by intro t; rw [sub_self, abs_zero]; norm_num
  have hz : linearOn s a b 0 = a := by unfold linearOn; simp
  have hsv : linearOn s a b s = b := by unfold linearOn; field_simp; ring
  by_cases hb : a ≥ cm - 1e-10 ∧ a < c + 1e-10
  · have hac : a ≤ c := by
      by_contra h
      exact ha ⟨not_le.1 h, hb.2⟩
    refine ⟨t, self t, 0, ?_⟩
    have h0m : (0 : ℝ) ∈ sidePoints cm c s a b := by
      unfold sidePoints
      rw [if_pos hb]
      simp
    by_cases hn : cm - 1e-10 ≤ b ∧ b < c + 1e-10
    · exact ⟨s, Or.inl h0m, Or.inr ⟨hn, rfl⟩, h0, h1⟩
    · rcases lt_or_ge b (cm - 1e-10) with h2 | h2
      · have hba : b < a := by linarith [hb.1]
        have hnc : ¬ Crosses c a b := by
          rintro (⟨h, _⟩ | ⟨_, h⟩) <;> linarith
        have ht : t ≤ s * (cm - a) / (b - a) := (linear_ge_down s a b cm t hs hba).1 hv.1
        have hva : linearOn s a b t ≤ a := by
          rw [linear_le_down s a b a t hs hba]
          simpa using h0
        rcases lt_or_ge cm a with h3 | h3
        · refine ⟨s * (cm - a) / (b - a), Or.inl h0m, Or.inl ?_, h0, ht⟩
          unfold sidePoints
          rw [if_pos hb, if_neg hnc, if_pos (show Crosses cm a b from Or.inl ⟨h3, by linarith⟩)]
          simp
        · have e : a = cm := le_antisymm h3 (by linarith [hv.1])
          refine ⟨0, Or.inl h0m, Or.inl h0m, h0, ?_⟩
          rw [e] at ht
          simpa using ht
      · have h3 : c + 1e-10 ≤ b := by
          by_contra h
          exact hn ⟨h2, not_le.1 h⟩
        have hba : a < b := by linarith
        have ht : t ≤ s * (c - a) / (b - a) := (linear_le_up s a b c t hs hba).1 hv.2
        rcases lt_or_ge a c with h4 | h4
        · refine ⟨s * (c - a) / (b - a), Or.inl h0m, Or.inl ?_, h0, ht⟩
          unfold sidePoints
          rw [if_pos hb, if_pos (show Crosses c a b from Or.inr ⟨h4, by linarith⟩)]
          simp
        · have e : a = c := le_antisymm hac h4
          refine ⟨0, Or.inl h0m, Or.inl h0m, h0, ?_⟩
          rw [e] at ht
          simpa using ht
  · rcases lt_or_ge a (cm - 1e-10) with h2 | h2
    · have hba : a < b := by
        by_contra h
        have h3 : b ≤ a := not_lt.1 h
        have : linearOn s a b t ≤ a := by
          unfold linearOn
          nlinarith [mul_nonneg (sub_nonneg.2 h3) (div_nonneg h0 hs.le)]
        linarith [hv.1]
      have hvb : linearOn s a b t ≤ b := by
        rw [linear_le_up s a b b t hs hba, mul_div_assoc, div_self (by linarith), mul_one]
        exact h1
      have ht1 : s * (cm - a) / (b - a) ≤ t := (linear_ge_up s a b cm t hs hba).1 hv.1
      rcases lt_or_ge cm b with h3 | h3
      · have hcm : Crosses cm a b := Or.inr ⟨by linarith, h3⟩
        by_cases hcc : Crosses c a b
        · have hle : ¬ s * (c - a) / (b - a) < s * (cm - a) / (b - a) := by
            rw [not_lt]
            have : 0 < b - a := by linarith
            gcongr
          have e : sidePoints cm c s a b = s * (cm - a) / (b - a) :: (if s * (c - a) / (b - a) - s * (cm - a) / (b - a) > 1e-10 then [s * (c - a) / (b - a)] else []) := by
            unfold sidePoints
            rw [if_neg hb, if_pos hcm]
            simp only [if_pos hcc, if_neg hle]
          rw [e]
          exact drawn_pair s _ _ t _ ht1 ((linear_le_up s a b c t hs hba).1 hv.2)
        · have hbc : b ≤ c := by
            by_contra h
            exact hcc (Or.inr ⟨by linarith, not_le.1 h⟩)
          refine ⟨t, self t, s * (cm - a) / (b - a), s, Or.inl ?_, Or.inr ⟨⟨by linarith, by linarith⟩, rfl⟩, ht1, h1⟩
          unfold sidePoints
          rw [if_neg hb, if_pos hcm]
          simp only [if_neg hcc, lt_irrefl, if_false]
          simp
      · have e : b = cm := le_antisymm h3 (by linarith [hv.1])
        have : s ≤ t := by
          rw [← e, mul_div_assoc, div_self (by linarith), mul_one] at ht1
          exact ht1
        exact ⟨t, self t, s, s, Or.inr ⟨⟨by linarith, by linarith⟩, rfl⟩, Or.inr ⟨⟨by linarith, by linarith⟩, rfl⟩, this, h1⟩
    · have h3 : c + 1e-10 ≤ a := by
        by_contra h
        exact hb ⟨h2, not_le.1 h⟩
      have hba : b < a := by
        by_contra h
        have h4 : a ≤ b := not_lt.1 h
        have : a ≤ linearOn s a b t := by
          unfold linearOn
          nlinarith [mul_nonneg (sub_nonneg.2 h4) (div_nonneg h0 hs.le)]
        linarith [hv.2]
      have ht1 : s * (c - a) / (b - a) ≤ t := (linear_le_down s a b c t hs hba).1 hv.2
      have ht2 : t ≤ s * (cm - a) / (b - a) := (linear_ge_down s a b cm t hs hba).1 hv.1
      have hbv : b ≤ linearOn s a b t := by
        rw [linear_ge_down s a b b t hs hba, mul_div_assoc, div_self (by linarith), mul_one]
        exact h1
      rcases lt_or_ge b cm with h4 | h4
      · have hcm : Crosses cm a b := Or.inl ⟨by linarith, h4⟩
        have hcc : Crosses c a b := Or.inl ⟨by linarith, by linarith⟩
        have e : ∃ x y : ℝ, sidePoints cm c s a b = x :: (if y - x > 1e-10 then [y] else []) ∧ x = s * (c - a) / (b - a) ∧ y = s * (cm - a) / (b - a) := by
          unfold sidePoints
          rw [if_neg hb, if_pos hcm]
          simp only [if_pos hcc]
          by_cases h5 : s * (c - a) / (b - a) < s * (cm - a) / (b - a)
          · simp only [if_pos h5]
            exact ⟨_, _, rfl, rfl, rfl⟩
          · simp only [if_neg h5]
            exact ⟨_, _, rfl, by linarith, by linarith⟩
        obtain ⟨x, y, e, ex, ey⟩ := e
        rw [e]
        exact drawn_pair s x y t _ (by rw [ex]; exact ht1) (by rw [ey]; exact ht2)
      · have hncm : ¬ Crosses cm a b := by
          rintro (⟨_, h⟩ | ⟨h, _⟩) <;> linarith
        rcases lt_or_ge b c with h5 | h5
        · refine ⟨t, self t, s * (c - a) / (b - a), s, Or.inl ?_, Or.inr ⟨⟨by linarith, by linarith⟩, rfl⟩, ht1, h1⟩
          unfold sidePoints
          rw [if_neg hb, if_neg hncm, if_pos (show Crosses c a b from Or.inl ⟨by linarith, h5⟩)]
          simp
        · have e : b = c := le_antisymm (by linarith [hv.2]) h5
          have : s ≤ t := by
            rw [← e, mul_div_assoc, div_self (by linarith), mul_one] at ht1
            exact ht1
          exact ⟨t, self t, s, s, Or.inr ⟨⟨by linarith, by linarith⟩, rfl⟩, Or.inr ⟨⟨by linarith, by linarith⟩, rfl⟩, this, h1⟩

/-! ## The levels -/

theorem contourLevels_length (fmin fmax : ℝ) (n : Nat) : (contourLevels fmin fmax n).length = n + 2 := by
  simp [contourLevels]

theorem contourLevels_get (fmin fmax : ℝ) (n k : Nat) (hk : k < n + 2) :
    (contourLevels fmin fmax n)[k]? = some (if k = 0 then fmin - 2 * (fmax - fmin) else if k = n + 1 then fmax + 2 * (fmax - fmin) else fmin + ((k : ℝ) - 1) / (n : ℝ) * (fmax - fmin)) := by
  cases k with
  | zero => simp [contourLevels]
  | succ k =>
    rw [if_neg (Nat.succ_ne_zero k)]
    unfold contourLevels
    rw [List.cons_append, List.getElem?_cons_succ]
    by_cases h : k = n
    · rw [if_pos (by omega), h, List.getElem?_append_right (by simp)]
      simp
    · rw [if_neg (by omega), List.getElem?_append_left (by simp; omega), List.getElem?_map, List.getElem?_range (by omega)]
      simp only [Option.map_some, Option.some.injEq]
      rw [show (1.0 : ℝ) = 1 by norm_num, Nat.cast_succ, add_sub_cancel_right, one_div, div_eq_inv_mul]

/-- In a list that does not decrease each value between the first and the last is between two neighbours. -/
theorem between_levels (l : List ℝ) (v : ℝ) : ∀ x : ℝ, x ≤ v → (∃ z ∈ l, v ≤ z) → ∃ k : Nat, ∃ a b : ℝ, (x :: l)[k]? = some a ∧ (x :: l)[k + 1]? = some b ∧ a ≤ v ∧ v ≤ b := by
  induction l with
  | nil => rintro x _ ⟨z, hz, _⟩; simp at hz
  | cons y ys ih =>
    intro x hx hz
    by_cases h : v ≤ y
    · exact ⟨0, x, y, by simp, by simp, hx, h⟩
    · obtain ⟨z, hz, hvz⟩ := hz
      have hz' : z ∈ ys := by
        rcases List.mem_cons.1 hz with e | e
        · exact absurd (e ▸ hvz) h
        · exact e
      obtain ⟨k, a, b, ha, hb, h1, h2⟩ := ih y (not_le.1 h).le ⟨z, hz', hvz⟩
      exact ⟨k + 1, a, b, by simpa using ha, by simpa using hb, h1, h2⟩

/-! ## C123 -/

/-- C123, the levels: they do not decrease, they are `num_contours + 2` in number, equally spaced between the two outer ones, and each value from the first to the last is in a band; with different extremes no two are equal. -/
theorem C123_levels (fmin fmax : ℝ) (n : Nat) (h : fmin ≤ fmax) :
    (contourLevels fmin fmax n).length = n + 2
    ∧ (∀ i : Nat, i < n → (contourLevels fmin fmax n)[i + 1]? = some (fmin + (i : ℝ) / (n : ℝ) * (fmax - fmin)))
    ∧ (contourLevels fmin fmax n).Pairwise (· ≤ ·)
    ∧ (fmin < fmax → (contourLevels fmin fmax n).Pairwise (· < ·))
    ∧ (∀ v : ℝ, fmin - 2 * (fmax - fmin) ≤ v → v ≤ fmax + 2 * (fmax - fmin) →
        ∃ k : Nat, ∃ a b : ℝ, (contourLevels fmin fmax n)[k]? = some a ∧ (contourLevels fmin fmax n)[k + 1]? = some b ∧ a ≤ v ∧ v ≤ b) := by
  have hl := contourLevels_length fmin fmax n
  have hget := contourLevels_get fmin fmax n
  have key : ∀ i j : Nat, i < j → j < n + 2 → ∃ a b : ℝ, (contourLevels fmin fmax n)[i]? = some a ∧ (contourLevels fmin fmax n)[j]? = some b ∧ a ≤ b ∧ (fmin < fmax → a < b) := by
    intro i j hij hj
    refine ⟨_, _, hget i (by omega), hget j hj, ?_⟩
    have hd : 0 ≤ fmax - fmin := by linarith
    rw [if_neg (show ¬ j = 0 by omega)]
    by_cases hi0 : i = 0
    · rw [if_pos hi0]
      by_cases hjn : j = n + 1
      · rw [if_pos hjn]
        constructor
        · linarith
        · intro; linarith
      · rw [if_neg hjn]
        have hj1 : (1 : ℝ) ≤ (j : ℝ) := by exact_mod_cast (show 1 ≤ j by omega)
        have : 0 ≤ ((j : ℝ) - 1) / (n : ℝ) * (fmax - fmin) := mul_nonneg (div_nonneg (by linarith) (Nat.cast_nonneg n)) hd
        constructor
        · linarith
        · intro; linarith
    · rw [if_neg hi0, if_neg (show ¬ i = n + 1 by omega)]
      have hn : (0 : ℝ) < (n : ℝ) := by exact_mod_cast (show 0 < n by omega)
      by_cases hjn : j = n + 1
      · rw [if_pos hjn]
        have hi1 : (i : ℝ) - 1 ≤ (n : ℝ) := by
          have : (i : ℝ) ≤ (n : ℝ) := by exact_mod_cast (show i ≤ n by omega)
          linarith
        have hq : ((i : ℝ) - 1) / (n : ℝ) ≤ 1 := by rw [div_le_one hn]; exact hi1
        have := mul_le_mul_of_nonneg_right hq hd
        constructor
        · linarith
        · intro; linarith
      · rw [if_neg hjn]
        have hlt : ((i : ℝ) - 1) / (n : ℝ) < ((j : ℝ) - 1) / (n : ℝ) := by
          have : (i : ℝ) < (j : ℝ) := by exact_mod_cast hij
          gcongr
        constructor
        · have := mul_le_mul_of_nonneg_right hlt.le hd
          linarith
        · intro hlt'
          have := mul_lt_mul_of_pos_right hlt (show 0 < fmax - fmin by linarith)
          linarith
  refine ⟨hl, ?_, ?_, ?_, ?_⟩
  · intro i hi
    rw [hget (i + 1) (by omega), if_neg (by omega), if_neg (by omega)]
    push_cast
    ring_nf
  · rw [List.pairwise_iff_getElem]
    intro i j hi hj hij
    obtain ⟨a, b, ha, hb, hab, _⟩ := key i j hij (by omega)
    rw [List.getElem?_eq_getElem hi] at ha
    rw [List.getElem?_eq_getElem hj] at hb
    rw [Option.some.inj ha, Option.some.inj hb]
    exact hab
  · intro hlt
    rw [List.pairwise_iff_getElem]
    intro i j hi hj hij
    obtain ⟨a, b, ha, hb, _, hab⟩ := key i j hij (by omega)
    rw [List.getElem?_eq_getElem hi] at ha
    rw [List.getElem?_eq_getElem hj] at hb
    rw [Option.some.inj ha, Option.some.inj hb]
    exact hab hlt
  · intro v h1 h2
    unfold contourLevels
    rw [List.cons_append]
    exact between_levels _ v _ h1 ⟨_, List.mem_append_right _ (List.mem_singleton.2 rfl), h2⟩

/-- C123, one side: the vertices are in order from its first corner, before its second; between two of them the value, taken as linear, is in the band up to 1e-10; and unless the value of the first corner is above the band by less
than that, each point of the side with a value in the band is within 1e-10 of a drawn one. -/
theorem C123_side_partial (cm c s a b : ℝ) (hs : 0 < s) (hc : cm ≤ c) :
    (sidePoints cm c s a b).Pairwise (· < ·) ∧ (∀ h ∈ sidePoints cm c s a b, 0 ≤ h ∧ h < s)
    ∧ (0 ∈ sidePoints cm c s a b ↔ cm - 1e-10 ≤ a ∧ a < c + 1e-10)
    ∧ (∀ t : ℝ, DrawnOn (sidePoints cm c s a b) s (cm - 1e-10 ≤ b ∧ b < c + 1e-10) t → cm - 1e-10 ≤ linearOn s a b t ∧ linearOn s a b t ≤ c + 1e-10)
    ∧ (¬ (c < a ∧ a < c + 1e-10) → ∀ t : ℝ, 0 ≤ t → t ≤ s → cm ≤ linearOn s a b t → linearOn s a b t ≤ c →
        ∃ t' : ℝ, |t - t'| ≤ 1e-10 ∧ DrawnOn (sidePoints cm c s a b) s (cm - 1e-10 ≤ b ∧ b < c + 1e-10) t') := by
  have eps : (0 : ℝ) < 1e-10 := by norm_num
  have hz : linearOn s a b 0 = a := by unfold linearOn; simp
  have hsv : linearOn s a b s = b := by unfold linearOn; field_simp; ring
  refine ⟨sidePoints_sorted cm c s a b hs, fun h hh => ⟨(sidePoints_mem cm c s a b hs h hh).1, (sidePoints_mem cm c s a b hs h hh).2.1⟩, ?_, ?_, ?_⟩
  · constructor
    · intro h
      rcases (sidePoints_mem cm c s a b hs 0 h).2.2 with h1 | h1 | h1
      · exact h1.2
      · rw [hz] at h1
        constructor <;> linarith
      · rw [hz] at h1
        constructor <;> linarith
    · intro h
      unfold sidePoints
      rw [if_pos ⟨h.1, h.2⟩]
      simp
  · rintro t ⟨p, q, hp, hq, h1, h2⟩
    have val : ∀ p : ℝ, (p ∈ sidePoints cm c s a b ∨ ((cm - 1e-10 ≤ b ∧ b < c + 1e-10) ∧ p = s)) → cm - 1e-10 ≤ linearOn s a b p ∧ linearOn s a b p ≤ c + 1e-10 := by
      intro p hp
      rcases hp with hp | ⟨hb, e⟩
      · rcases (sidePoints_mem cm c s a b hs p hp).2.2 with h1 | h1 | h1
        · rw [h1.1, hz]
          exact ⟨h1.2.1, h1.2.2.le⟩
        · rw [h1]
          constructor <;> linarith
        · rw [h1]
          constructor <;> linarith
      · rw [e, hsv]
        exact ⟨hb.1, hb.2.le⟩
    exact linearOn_mono s a b hs p t q h1 h2 _ _ (val p hp) (val q hq)
  · intro ha t h0 h1 h2 h3
    exact sidePoints_complete cm c s a b t hs hc ha h0 h1 ⟨h2, h3⟩

/-- C123 is false without that condition: a side that falls through the whole band from a corner just above it has only its first corner and the point next to it as vertices. -/
theorem C123_side_false : ∃ cm c s a b t : ℝ, 0 < s ∧ cm < c ∧ c < a ∧ a < c + 1e-10 ∧ 0 ≤ t ∧ t ≤ s ∧ cm < linearOn s a b t ∧ linearOn s a b t < c
    ∧ ∀ t' : ℝ, DrawnOn (sidePoints cm c s a b) s (cm - 1e-10 ≤ b ∧ b < c + 1e-10) t' → 0.4 < t - t' := by
  refine ⟨0, 1, 1, 1 + 0.5e-10, -1, 0.45, by norm_num, by norm_num, by norm_num, by norm_num, by norm_num, by norm_num, by norm_num [linearOn], by norm_num [linearOn], ?_⟩
  have hc : Crosses 1 (1 + 0.5e-10) (-1) := Or.inl ⟨by norm_num, by norm_num⟩
  have e : sidePoints 0 1 1 (1 + 0.5e-10) (-1) = [0, 1 * (1 - (1 + 0.5e-10)) / (-1 - (1 + 0.5e-10))] := by
    unfold sidePoints
    rw [if_pos ⟨by norm_num, by norm_num⟩, if_pos hc]
  rw [e]
  rintro t' ⟨p, q, _, hq, _, h2⟩
  rcases hq with hq | hq
  · rcases List.mem_cons.1 hq with h | h
    · rw [h] at h2
      norm_num
      linarith
    · rw [List.mem_singleton] at h
      rw [h] at h2
      norm_num at h2 ⊢
      linarith
  · exfalso
    have := hq.1.1
    norm_num at this

/-- C123, a square: the vertices of a band are on its boundary and follow one another anticlockwise, so that no two are the same; the values there are in the band, and the polygon has each point of the boundary with a value in
the band, both up to 1e-10 and the latter unless a corner is just above the band. -/
theorem C123_polygon_partial (cm c xo yo sx sy fo f1 f2 f3 : ℝ) (hx : 0 < sx) (hy : 0 < sy) :
    ∃ us : List ℝ, bandPolygon cm c xo yo sx sy fo f1 f2 f3 = us.map (alongRect xo yo sx sy) ∧ us.Pairwise (· < ·) ∧ (∀ u ∈ us, 0 ≤ u ∧ u < sx + sy + sx + sy)
      ∧ (cm ≤ c → ∀ u ∈ us, cm - 1e-10 ≤ valueAlong sx sy fo f1 f2 f3 u ∧ valueAlong sx sy fo f1 f2 f3 u ≤ c + 1e-10)
      ∧ (cm ≤ c → (∀ f ∈ [fo, f1, f2, f3], ¬ (c < f ∧ f < c + 1e-10)) → ∀ u : ℝ, 0 ≤ u → u < sx + sy + sx + sy → cm ≤ valueAlong sx sy fo f1 f2 f3 u → valueAlong sx sy fo f1 f2 f3 u ≤ c →
          ∃ u' d s : ℝ, (d, s) ∈ [(0, sx), (sx, sy), (sx + sy, sx), (sx + sy + sx, sy)] ∧ |u - u'| ≤ 1e-10 ∧ DrawnAlong us (sx + sy + sx + sy) d s u') := by
  refine ⟨sidePoints cm c sx fo f1 ++ ((sidePoints cm c sy f1 f2).map fun h => sx + h) ++ ((sidePoints cm c sx f2 f3).map fun h => sx + sy + h) ++ ((sidePoints cm c sy f3 fo).map fun h => sx + sy + sx + h), ?_, ?_, ?_, ?_, ?_⟩
  · unfold bandPolygon
    simp only [List.map_append, List.map_map]
    congr 1
    · congr 1
      · congr 1
        · apply List.map_congr_left
          intro h hh
          have := sidePoints_mem cm c sx fo f1 hx h hh
          unfold alongRect
          rw [if_pos this.2.1]
        · apply List.map_congr_left
          intro h hh
          have := sidePoints_mem cm c sy f1 f2 hy h hh
          simp only [Function.comp, alongRect]
          rw [if_neg (by linarith), if_pos (by linarith)]
          simp
      · apply List.map_congr_left
        intro h hh
        have := sidePoints_mem cm c sx f2 f3 hx h hh
        simp only [Function.comp, alongRect]
        rw [if_neg (by linarith), if_neg (by linarith), if_pos (by linarith)]
        ring_nf
    · apply List.map_congr_left
      intro h hh
      have := sidePoints_mem cm c sy f3 fo hy h hh
      simp only [Function.comp, alongRect]
      rw [if_neg (by linarith), if_neg (by linarith), if_neg (by linarith)]
      ring_nf
  · have shift : ∀ (d s a b : ℝ), 0 < s → ((sidePoints cm c s a b).map fun h => d + h).Pairwise (· < ·) := by
      intro d s a b hs
      rw [List.pairwise_map]
      exact (sidePoints_sorted cm c s a b hs).imp fun {x y} h => by linarith
    have rng : ∀ (d s a b u : ℝ), 0 < s → u ∈ ((sidePoints cm c s a b).map fun h => d + h) → d ≤ u ∧ u < d + s := by
      intro d s a b u hs hu
      obtain ⟨h, hh, e⟩ := List.mem_map.1 hu
      have := sidePoints_mem cm c s a b hs h hh
      rw [← e]
      exact ⟨by linarith, by linarith⟩
    have r0 : ∀ u ∈ sidePoints cm c sx fo f1, 0 ≤ u ∧ u < sx := fun u hu => ⟨(sidePoints_mem cm c sx fo f1 hx u hu).1, (sidePoints_mem cm c sx fo f1 hx u hu).2.1⟩
    rw [List.pairwise_append, List.pairwise_append, List.pairwise_append]
    refine ⟨⟨⟨sidePoints_sorted cm c sx fo f1 hx, shift sx sy f1 f2 hy, ?_⟩, shift (sx + sy) sx f2 f3 hx, ?_⟩, shift (sx + sy + sx) sy f3 fo hy, ?_⟩
    · intro u hu w hw
      linarith [(r0 u hu).2, (rng _ _ _ _ w hy hw).1]
    · intro u hu w hw
      have h3 := (rng _ _ _ _ w hx hw).1
      rcases List.mem_append.1 hu with hu | hu
      · linarith [(r0 u hu).2]
      · linarith [(rng _ _ _ _ u hy hu).2]
    · intro u hu w hw
      have h3 := (rng _ _ _ _ w hy hw).1
      rcases List.mem_append.1 hu with hu | hu
      · rcases List.mem_append.1 hu with hu | hu
        · linarith [(r0 u hu).2]
        · linarith [(rng _ _ _ _ u hy hu).2]
      · linarith [(rng _ _ _ _ u hx hu).2]
  · intro u hu
    simp only [List.mem_append, List.mem_map] at hu
    rcases hu with ((hu | ⟨h, hh, e⟩) | ⟨h, hh, e⟩) | ⟨h, hh, e⟩
    · have := sidePoints_mem cm c sx fo f1 hx u hu
      exact ⟨this.1, by linarith⟩
    · have := sidePoints_mem cm c sy f1 f2 hy h hh
      rw [← e]
      exact ⟨by linarith, by linarith⟩
    · have := sidePoints_mem cm c sx f2 f3 hx h hh
      rw [← e]
      exact ⟨by linarith, by linarith⟩
    · have := sidePoints_mem cm c sy f3 fo hy h hh
      rw [← e]
      exact ⟨by linarith, by linarith⟩
  · intro hc u hu
    have val : ∀ (s a b h : ℝ), 0 < s → h ∈ sidePoints cm c s a b → cm - 1e-10 ≤ linearOn s a b h ∧ linearOn s a b h ≤ c + 1e-10 := by
      intro s a b h hs hh
      exact (C123_side_partial cm c s a b hs hc).2.2.2.1 h ⟨h, h, Or.inl hh, Or.inl hh, le_refl _, le_refl _⟩
    simp only [List.mem_append, List.mem_map] at hu
    unfold valueAlong
    rcases hu with ((hu | ⟨h, hh, e⟩) | ⟨h, hh, e⟩) | ⟨h, hh, e⟩
    · rw [if_pos (sidePoints_mem cm c sx fo f1 hx u hu).2.1]
      exact val sx fo f1 u hx hu
    · have := sidePoints_mem cm c sy f1 f2 hy h hh
      rw [← e, if_neg (by linarith), if_pos (by linarith), show sx + h - sx = h by ring]
      exact val sy f1 f2 h hy hh
    · have := sidePoints_mem cm c sx f2 f3 hx h hh
      rw [← e, if_neg (by linarith), if_neg (by linarith), if_pos (by linarith), show sx + sy + h - sx - sy = h by ring]
      exact val sx f2 f3 h hx hh
    · have := sidePoints_mem cm c sy f3 fo hy h hh
      rw [← e, if_neg (by linarith), if_neg (by linarith), if_neg (by linarith), show sx + sy + sx + h - sx - sy - sx = h by ring]
      exact val sy f3 fo h hy hh
  · intro hc hf u h0 h1 hv hv'
    have corner : ∀ (s a b : ℝ), 0 < s → (cm - 1e-10 ≤ a ∧ a < c + 1e-10) → 0 ∈ sidePoints cm c s a b := fun s a b hs h => (C123_side_partial cm c s a b hs hc).2.2.1.2 h
    have side : ∀ (us : List ℝ) (per d s a b t : ℝ), 0 < s → ¬ (c < a ∧ a < c + 1e-10) → (∀ h ∈ sidePoints cm c s a b, d + h ∈ us) →
        ((cm - 1e-10 ≤ b ∧ b < c + 1e-10) → (d + s ∈ us ∨ (0 ∈ us ∧ d + s = per))) → 0 ≤ t → t ≤ s → cm ≤ linearOn s a b t → linearOn s a b t ≤ c →
        ∃ u' : ℝ, |d + t - u'| ≤ 1e-10 ∧ DrawnAlong us per d s u' := by
      intro us per d s a b t hs ha hsub hnext h0 h1 h2 h3
      obtain ⟨t', ht, p, q, hp, hq, hpt, htq⟩ := sidePoints_complete cm c s a b t hs hc ha h0 h1 ⟨h2, h3⟩
      have conv : ∀ p : ℝ, (p ∈ sidePoints cm c s a b ∨ ((cm - 1e-10 ≤ b ∧ b < c + 1e-10) ∧ p = s)) → (d + p ∈ us ∨ (0 ∈ us ∧ d + p = per)) ∧ 0 ≤ p ∧ p ≤ s := by
        intro p hp
        rcases hp with hp | ⟨hb, e⟩
        · have := sidePoints_mem cm c s a b hs p hp
          exact ⟨Or.inl (hsub p hp), this.1, this.2.1.le⟩
        · rw [e]
          exact ⟨hnext hb, hs.le, le_refl s⟩
      refine ⟨d + t', ?_, d + p, d + q, (conv p hp).1, (conv q hq).1, ?_, ?_, ?_, ?_⟩
      · rw [show d + t - (d + t') = t - t' by ring]
        exact ht
      · linarith [(conv p hp).2.1]
      · linarith [(conv q hq).2.2]
      · linarith
      · linarith
    have f0' := hf fo (by simp)
    have f1' := hf f1 (by simp)
    have f2' := hf f2 (by simp)
    have f3' := hf f3 (by simp)
    unfold valueAlong at hv hv'
    by_cases c1 : u < sx
    · rw [if_pos c1] at hv hv'
      obtain ⟨u', hu, hd⟩ := side (sidePoints cm c sx fo f1 ++ ((sidePoints cm c sy f1 f2).map fun h => sx + h) ++ ((sidePoints cm c sx f2 f3).map fun h => sx + sy + h) ++ ((sidePoints cm c sy f3 fo).map fun h => sx + sy + sx + h))
        (sx + sy + sx + sy) 0 sx fo f1 u hx f0' (by intro h hh; rw [zero_add]; simp [hh]) (by
          intro hb
          refine Or.inl ?_
          simp only [List.mem_append, List.mem_map]
          exact Or.inl (Or.inl (Or.inr ⟨0, corner sy f1 f2 hy hb, by ring⟩))) h0 c1.le hv hv'
      exact ⟨u', 0, sx, by simp, by rw [zero_add] at hu; exact hu, hd⟩
    · rw [if_neg c1] at hv hv'
      by_cases c2 : u < sx + sy
      · rw [if_pos c2] at hv hv'
        obtain ⟨u', hu, hd⟩ := side (sidePoints cm c sx fo f1 ++ ((sidePoints cm c sy f1 f2).map fun h => sx + h) ++ ((sidePoints cm c sx f2 f3).map fun h => sx + sy + h) ++ ((sidePoints cm c sy f3 fo).map fun h => sx + sy + sx + h))
          (sx + sy + sx + sy) sx sy f1 f2 (u - sx) hy f1' (by intro h hh; simp [hh]) (by
            intro hb
            refine Or.inl ?_
            simp only [List.mem_append, List.mem_map]
            exact Or.inl (Or.inr ⟨0, corner sx f2 f3 hx hb, by ring⟩)) (by linarith) (by linarith) hv hv'
        exact ⟨u', sx, sy, by simp, by rw [show sx + (u - sx) = u by ring] at hu; exact hu, hd⟩
      · rw [if_neg c2] at hv hv'
        by_cases c3 : u < sx + sy + sx
        · rw [if_pos c3] at hv hv'
          obtain ⟨u', hu, hd⟩ := side (sidePoints cm c sx fo f1 ++ ((sidePoints cm c sy f1 f2).map fun h => sx + h) ++ ((sidePoints cm c sx f2 f3).map fun h => sx + sy + h) ++ ((sidePoints cm c sy f3 fo).map fun h => sx + sy + sx + h))
            (sx + sy + sx + sy) (sx + sy) sx f2 f3 (u - sx - sy) hx f2' (by intro h hh; simp [hh]) (by
              intro hb
              refine Or.inl ?_
              simp only [List.mem_append, List.mem_map]
              exact Or.inr ⟨0, corner sy f3 fo hy hb, by ring⟩) (by linarith) (by linarith) hv hv'
          exact ⟨u', sx + sy, sx, by simp, by rw [show sx + sy + (u - sx - sy) = u by ring] at hu; exact hu, hd⟩
        · rw [if_neg c3] at hv hv'
          obtain ⟨u', hu, hd⟩ := side (sidePoints cm c sx fo f1 ++ ((sidePoints cm c sy f1 f2).map fun h => sx + h) ++ ((sidePoints cm c sx f2 f3).map fun h => sx + sy + h) ++ ((sidePoints cm c sy f3 fo).map fun h => sx + sy + sx + h))
            (sx + sy + sx + sy) (sx + sy + sx) sy f3 fo (u - sx - sy - sx) hy f3' (by intro h hh; simp [hh]) (by
              intro hb
              refine Or.inr ⟨?_, by ring⟩
              simp only [List.mem_append, List.mem_map]
              exact Or.inl (Or.inl (Or.inl (corner sx fo f1 hx hb)))) (by linarith) (by linarith) hv hv'
          exact ⟨u', sx + sy + sx, sy, by simp, by rw [show sx + sy + sx + (u - sx - sy - sx) = u by ring] at hu; exact hu, hd⟩

/-- C123, the page: a box is drawn without distortion between the margins of one inch of a page of 8.5 by 11 inches, and as large as that allows. -/
theorem C123_page (xmin xmax ymin ymax : ℝ) (hx : xmin < xmax) (hy : ymin < ymax) :
    (∃ k : ℝ, 0 < k ∧ ∀ p q : ℝ × ℝ, (onPage xmin xmax ymin ymax p).1 - (onPage xmin xmax ymin ymax q).1 = k * (p.1 - q.1) ∧ (onPage xmin xmax ymin ymax p).2 - (onPage xmin xmax ymin ymax q).2 = k * (p.2 - q.2))
    ∧ (∀ p : ℝ × ℝ, xmin ≤ p.1 → p.1 ≤ xmax → ymin ≤ p.2 → p.2 ≤ ymax →
        1 ≤ (onPage xmin xmax ymin ymax p).1 ∧ (onPage xmin xmax ymin ymax p).1 ≤ 7.5 ∧ 1 ≤ (onPage xmin xmax ymin ymax p).2 ∧ (onPage xmin xmax ymin ymax p).2 ≤ 10)
    ∧ (((onPage xmin xmax ymin ymax (xmin, ymin)).1 = 1 ∧ (onPage xmin xmax ymin ymax (xmax, ymax)).1 = 7.5)
        ∨ ((onPage xmin xmax ymin ymax (xmin, ymin)).2 = 1 ∧ (onPage xmin xmax ymin ymax (xmax, ymax)).2 = 10)) := by
  have lx : 0 < xmax - xmin := by linarith
  have ly : 0 < ymax - ymin := by linarith
  have ex : (6.5 / (xmax - xmin)) * (xmax - xmin) = 6.5 := by field_simp
  have ey : (9.0 / (ymax - ymin)) * (ymax - ymin) = 9.0 := by field_simp
  have px : 0 < 6.5 / (xmax - xmin) := by positivity
  have py : 0 < 9.0 / (ymax - ymin) := by positivity
  by_cases h : 6.5 / (xmax - xmin) < 9.0 / (ymax - ymin)
  · have e : plotScale xmin xmax ymin ymax = (6.5 / (xmax - xmin), 1.0 - xmin * (6.5 / (xmax - xmin)), 0.5 * (11.0 - (ymax - ymin) * (6.5 / (xmax - xmin))) - ymin * (6.5 / (xmax - xmin))) := by
      unfold plotScale
      simp only [if_pos h]
    have hle : (6.5 / (xmax - xmin)) * (ymax - ymin) ≤ 9.0 := by
      rw [← ey]
      exact mul_le_mul_of_nonneg_right h.le ly.le
    generalize 6.5 / (xmax - xmin) = k at *
    simp only [onPage, e]
    refine ⟨⟨k, px, fun p q => ⟨by rw [add_sub_add_left_eq_sub, ← sub_mul, mul_comm], by rw [add_sub_add_left_eq_sub, ← sub_mul, mul_comm]⟩⟩, ?_, Or.inl ⟨?_, ?_⟩⟩
    · intro p h1 h2 h3 h4
      norm_num at ex ey hle ⊢
      refine ⟨?_, ?_, ?_, ?_⟩ <;> nlinarith
    · norm_num
    · norm_num at ex ⊢
      linarith
  · have e : plotScale xmin xmax ymin ymax = (9.0 / (ymax - ymin), 0.5 * (8.5 - (xmax - xmin) * (9.0 / (ymax - ymin))) - xmin * (9.0 / (ymax - ymin)), 1.0 - ymin * (9.0 / (ymax - ymin))) := by
      unfold plotScale
      simp only [if_neg h]
    have hle : (9.0 / (ymax - ymin)) * (xmax - xmin) ≤ 6.5 := by
      rw [← ex]
      exact mul_le_mul_of_nonneg_right (not_lt.1 h) lx.le
    generalize 9.0 / (ymax - ymin) = k at *
    simp only [onPage, e]
    refine ⟨⟨k, py, fun p q => ⟨by rw [add_sub_add_left_eq_sub, ← sub_mul, mul_comm], by rw [add_sub_add_left_eq_sub, ← sub_mul, mul_comm]⟩⟩, ?_, Or.inr ⟨?_, ?_⟩⟩
    · intro p h1 h2 h3 h4
      norm_num at ex ey hle ⊢
      refine ⟨?_, ?_, ?_, ?_⟩ <;> nlinarith
    · norm_num
    · norm_num at ey ⊢
      linarith

theorem bandColour_range (g : ℝ) (h0 : 0 ≤ g) (h1 : g ≤ 1) :
    0 ≤ (bandColour g).1 ∧ (bandColour g).1 ≤ 1 ∧ 0 ≤ (bandColour g).2.1 ∧ (bandColour g).2.1 ≤ 1 ∧ 0 ≤ (bandColour g).2.2 ∧ (bandColour g).2.2 ≤ 1 := by
  unfold bandColour
  norm_num
  refine ⟨?_, ?_, ?_, ?_, ?_, ?_⟩ <;> split_ifs <;> nlinarith

/-- Different numbers have different colours. -/
theorem bandColour_lt (g g' : ℝ) (h0 : 0 ≤ g) (h1 : g' ≤ 1) (h : g < g') : bandColour g ≠ bandColour g' := by
  intro e
  unfold bandColour at e
  norm_num at e
  obtain ⟨er, eg, eb⟩ := e
  split_ifs at er eg eb <;> nlinarith

/-- C123, the colours: each is one, and no two bands have the same. -/
theorem C123_colours (num : Nat) :
    (∀ k : Nat, k ≤ num → 0 ≤ (bandColour (bandGrey k num)).1 ∧ (bandColour (bandGrey k num)).1 ≤ 1 ∧ 0 ≤ (bandColour (bandGrey k num)).2.1 ∧ (bandColour (bandGrey k num)).2.1 ≤ 1
      ∧ 0 ≤ (bandColour (bandGrey k num)).2.2 ∧ (bandColour (bandGrey k num)).2.2 ≤ 1)
    ∧ ∀ j k : Nat, j < k → k ≤ num → bandColour (bandGrey j num) ≠ bandColour (bandGrey k num) := by
  have rng : ∀ k : Nat, k ≤ num → 0 ≤ bandGrey k num ∧ bandGrey k num ≤ 1 := by
    intro k hk
    unfold bandGrey
    have h2 : (k : ℝ) ≤ (num : ℝ) := by exact_mod_cast hk
    have h3 : (k : ℝ) / (num : ℝ) ≤ 1 := div_le_one_of_le₀ h2 (Nat.cast_nonneg num)
    have h4 : 0 ≤ (k : ℝ) / (num : ℝ) := by positivity
    norm_num
    exact ⟨h3, h4⟩
  refine ⟨fun k hk => bandColour_range _ (rng k hk).1 (rng k hk).2, ?_⟩
  intro j k hjk hk
  have hn : (0 : ℝ) < (num : ℝ) := by exact_mod_cast (show 0 < num by omega)
  have hlt : bandGrey k num < bandGrey j num := by
    unfold bandGrey
    have h2 : (j : ℝ) < (k : ℝ) := by exact_mod_cast hjk
    have h3 : (j : ℝ) / (num : ℝ) < (k : ℝ) / (num : ℝ) := by gcongr
    norm_num
    exact h3
  exact (bandColour_lt _ _ (rng k hk).1 (rng j (by omega)).2 hlt).symm

theorem alongRect_mem (xo yo sx sy u : ℝ) (hx : 0 < sx) (hy : 0 < sy) (h0 : 0 ≤ u) (h1 : u < sx + sy + sx + sy) :
    xo ≤ (alongRect xo yo sx sy u).1 ∧ (alongRect xo yo sx sy u).1 ≤ xo + sx ∧ yo ≤ (alongRect xo yo sx sy u).2 ∧ (alongRect xo yo sx sy u).2 ≤ yo + sy := by
  unfold alongRect
  split_ifs <;> refine ⟨?_, ?_, ?_, ?_⟩ <;> dsimp only <;> linarith

theorem squareBands_mem (levels : List ℝ) (xo yo sx sy fo f1 f2 f3 : ℝ) (e : List (ℝ × ℝ) × (ℝ × ℝ × ℝ)) :
    e ∈ squareBands levels xo yo sx sy fo f1 f2 f3 ↔
      ∃ k : Nat, ∃ cm c : ℝ, levels[k]? = some cm ∧ levels[k + 1]? = some c ∧ e.1 = bandPolygon cm c xo yo sx sy fo f1 f2 f3 ∧ e.1.length > 1 ∧ e.2 = bandColour (bandGrey (k + 1) levels.length) := by
  unfold squareBands
  rw [List.mem_filterMap]
  constructor
  · rintro ⟨k, _, he⟩
    cases h1 : levels[k]? with
    | none => rw [h1] at he; cases he
    | some cm =>
      cases h2 : levels[k + 1]? with
      | none => rw [h1, h2] at he; cases he
      | some c =>
        rw [h1, h2] at he
        by_cases h3 : (bandPolygon cm c xo yo sx sy fo f1 f2 f3).length > 1
        · simp only [if_pos h3, Option.some.injEq] at he
          exact ⟨k, cm, c, h1, h2, by rw [← he], by rw [← he]; exact h3, by rw [← he]⟩
        · simp only [if_neg h3] at he
          cases he
  · rintro ⟨k, cm, c, h1, h2, h3, h4, h5⟩
    refine ⟨k, ?_, ?_⟩
    · have := (List.getElem?_eq_some_iff.1 h2).1
      rw [List.mem_range]
      omega
    · rw [h1, h2]
      rw [h3] at h4
      simp only [if_pos h4]
      rw [← h3, ← h5]

/-- C123, what is drawn in a square of the box: polygons with at least two different vertices between the margins of the page, in colours that are not the same for two of them; each band with two vertices is drawn. -/
theorem C123_drawn (xmin xmax ymin ymax xo yo sx sy fo f1 f2 f3 : ℝ) (levels : List ℝ) (hx : 0 < sx) (hy : 0 < sy) (h1 : xmin ≤ xo) (h2 : xo + sx ≤ xmax) (h3 : ymin ≤ yo) (h4 : yo + sy ≤ ymax) :
    (∀ e ∈ squareBands levels xo yo sx sy fo f1 f2 f3, e.1.length > 1
      ∧ (∀ p ∈ e.1, 1 ≤ (onPage xmin xmax ymin ymax p).1 ∧ (onPage xmin xmax ymin ymax p).1 ≤ 7.5 ∧ 1 ≤ (onPage xmin xmax ymin ymax p).2 ∧ (onPage xmin xmax ymin ymax p).2 ≤ 10)
      ∧ 0 ≤ e.2.1 ∧ e.2.1 ≤ 1 ∧ 0 ≤ e.2.2.1 ∧ e.2.2.1 ≤ 1 ∧ 0 ≤ e.2.2.2 ∧ e.2.2.2 ≤ 1)
    ∧ (squareBands levels xo yo sx sy fo f1 f2 f3).Pairwise (fun e e' => e.2 ≠ e'.2)
    ∧ (∀ (k : Nat) (cm c : ℝ), levels[k]? = some cm → levels[k + 1]? = some c → (bandPolygon cm c xo yo sx sy fo f1 f2 f3).length > 1 →
        ∃ e ∈ squareBands levels xo yo sx sy fo f1 f2 f3, e.1 = bandPolygon cm c xo yo sx sy fo f1 f2 f3) := by
  refine ⟨?_, ?_, fun k cm c h1 h2 h3 => ⟨(_, _), (squareBands_mem levels xo yo sx sy fo f1 f2 f3 _).2 ⟨k, cm, c, h1, h2, rfl, h3, rfl⟩, rfl⟩⟩
  · intro e he
    obtain ⟨k, cm, c, hk, hk', hp, hl, hc⟩ := (squareBands_mem levels xo yo sx sy fo f1 f2 f3 e).1 he
    refine ⟨hl, ?_, ?_⟩
    · intro p hpe
      obtain ⟨us, hus, _, hr, _⟩ := C123_polygon_partial cm c xo yo sx sy fo f1 f2 f3 hx hy
      rw [hp, hus] at hpe
      obtain ⟨u, hu, e'⟩ := List.mem_map.1 hpe
      have := alongRect_mem xo yo sx sy u hx hy (hr u hu).1 (hr u hu).2
      rw [e'] at this
      exact (C123_page xmin xmax ymin ymax (by linarith) (by linarith)).2.1 p (by linarith) (by linarith) (by linarith) (by linarith)
    · rw [hc]
      exact (C123_colours levels.length).1 (k + 1) (List.getElem?_eq_some_iff.1 hk').1.le
  · unfold squareBands
    rw [List.pairwise_filterMap]
    have hr : (List.range (levels.length - 1)).Pairwise fun a b => a < b ∧ b < levels.length - 1 := by
      rw [List.pairwise_iff_getElem]
      intro i j hi hj hij
      rw [List.length_range] at hj
      rw [List.getElem_range, List.getElem_range]
      exact ⟨hij, hj⟩
    refine hr.imp ?_
    intro a b hab x hx' y hy'
    have col : ∀ (k : Nat) (x : List (ℝ × ℝ) × (ℝ × ℝ × ℝ)), (match levels[k]?, levels[k + 1]? with
        | some cm, some c =>
          let p := bandPolygon cm c xo yo sx sy fo f1 f2 f3
          if p.length > 1 then some (p, bandColour (bandGrey (k + 1) levels.length)) else none
        | _, _ => none) = some x → x.2 = bandColour (bandGrey (k + 1) levels.length) := by
      intro k x h
      split at h
      · dsimp only at h
        split_ifs at h
        rw [← Option.some.inj h]
      · cases h
    rw [col a x hx', col b y hy']
    exact (C123_colours levels.length).2 (a + 1) (b + 1) (by omega) (by omega)

/-- C123, nothing is left out: a point of a side with a value from the first to the last level is within 1e-10 of what is drawn of some band on that side, unless the first corner of the side is just above a level. -/
theorem C123_covered_partial (fmin fmax s a b t : ℝ) (n : Nat) (h : fmin ≤ fmax) (hs : 0 < s) (ha : ∀ c ∈ contourLevels fmin fmax n, ¬ (c < a ∧ a < c + 1e-10)) (h0 : 0 ≤ t) (h1 : t ≤ s)
    (hl : fmin - 2 * (fmax - fmin) ≤ linearOn s a b t) (hu : linearOn s a b t ≤ fmax + 2 * (fmax - fmin)) :
    ∃ k : Nat, ∃ cm c t' : ℝ, (contourLevels fmin fmax n)[k]? = some cm ∧ (contourLevels fmin fmax n)[k + 1]? = some c ∧ |t - t'| ≤ 1e-10
      ∧ DrawnOn (sidePoints cm c s a b) s (cm - 1e-10 ≤ b ∧ b < c + 1e-10) t' := by
  obtain ⟨_, _, _, _, hb⟩ := C123_levels fmin fmax n h
  obtain ⟨k, cm, c, hk, hk', hv, hv'⟩ := hb _ hl hu
  obtain ⟨t', h2, h3⟩ := sidePoints_complete cm c s a b t hs (le_trans hv hv') (ha c (List.mem_of_getElem? hk')) h0 h1 ⟨hv, hv'⟩
  exact ⟨k, cm, c, t', hk, hk', h2, h3⟩

/-- C123, finding: a square whose values are all above the last level by 1e-10 or more is left white.  In a slice the extremes are arguments, so this is a value that is more than twice their difference above the larger. -/
theorem C123_white (fmin fmax xo yo sx sy fo f1 f2 f3 : ℝ) (n : Nat) (h : fmin ≤ fmax) (g0 : fmax + 2 * (fmax - fmin) + 1e-10 ≤ fo) (g1 : fmax + 2 * (fmax - fmin) + 1e-10 ≤ f1)
    (g2 : fmax + 2 * (fmax - fmin) + 1e-10 ≤ f2) (g3 : fmax + 2 * (fmax - fmin) + 1e-10 ≤ f3) : squareBands (contourLevels fmin fmax n) xo yo sx sy fo f1 f2 f3 = [] := by
  have eps : (0 : ℝ) < 1e-10 := by norm_num
  rw [List.eq_nil_iff_forall_not_mem]
  intro e he
  obtain ⟨k, cm, c, hk, hk', hp, hl, _⟩ := (squareBands_mem _ xo yo sx sy fo f1 f2 f3 e).1 he
  have top : ∀ (k : Nat) (c : ℝ), (contourLevels fmin fmax n)[k]? = some c → c ≤ fmax + 2 * (fmax - fmin) := by
    intro k c hk
    have hlen := contourLevels_length fmin fmax n
    have hlast := contourLevels_get fmin fmax n (n + 1) (by omega)
    rw [if_neg (by omega), if_pos rfl] at hlast
    obtain ⟨hi, hc⟩ := List.getElem?_eq_some_iff.1 hk
    obtain ⟨hj, hc'⟩ := List.getElem?_eq_some_iff.1 hlast
    rcases Nat.lt_or_ge k (n + 1) with h2 | h2
    · have := List.pairwise_iff_getElem.1 (C123_levels fmin fmax n h).2.2.1 k (n + 1) hi hj h2
      rw [hc, hc'] at this
      exact this
    · have : k = n + 1 := by omega
      subst this
      rw [← hc, ← hc']
  have hcm := top k cm hk
  have hc := top (k + 1) c hk'
  have none : ∀ s a b : ℝ, fmax + 2 * (fmax - fmin) + 1e-10 ≤ a → fmax + 2 * (fmax - fmin) + 1e-10 ≤ b → sidePoints cm c s a b = [] := by
    intro s a b h1 h2
    unfold sidePoints
    rw [if_neg (by rintro ⟨_, h⟩; linarith), if_neg (by rintro (⟨_, h⟩ | ⟨h, _⟩) <;> linarith), if_neg (by rintro (⟨_, h⟩ | ⟨h, _⟩) <;> linarith)]
  rw [hp] at hl
  unfold bandPolygon at hl
  rw [none sx fo f1 g0 g1, none sy f1 f2 g1 g2, none sx f2 f3 g2 g3, none sy f3 fo g3 g0] at hl
  simp at hl

/-- Not vacuous: a square with a band that enters through its lower side and leaves through its upper side. -/
example : bandPolygon 1 2 0 0 1 1 0 4 4 0 = [(1 / 4, 0), (1 / 2, 0), (1 / 2, 1), (1 / 4, 1)] := by
  have u : sidePoints 1 2 1 0 4 = [1 / 4, 1 / 2] := by
    unfold sidePoints
    rw [if_neg (by norm_num), if_pos (show Crosses 1 0 4 from Or.inr ⟨by norm_num, by norm_num⟩)]
    simp only [if_pos (show Crosses 2 0 4 from Or.inr ⟨by norm_num, by norm_num⟩)]
    norm_num
  have d : sidePoints 1 2 1 4 0 = [1 / 2, 3 / 4] := by
    unfold sidePoints
    rw [if_neg (by norm_num), if_pos (show Crosses 1 4 0 from Or.inl ⟨by norm_num, by norm_num⟩)]
    simp only [if_pos (show Crosses 2 4 0 from Or.inl ⟨by norm_num, by norm_num⟩)]
    norm_num
  have z : ∀ a : ℝ, a = 0 ∨ a = 4 → sidePoints 1 2 1 a a = [] := by
    intro a ha
    unfold sidePoints
    have hno : ¬ (a ≥ 1 - 1e-10 ∧ a < 2 + 1e-10) := by
      rintro ⟨h1, h2⟩
      rcases ha with h | h
      · rw [h] at h1
        norm_num at h1
      · rw [h] at h2
        norm_num at h2
    rw [if_neg hno, if_neg (by rintro (⟨h, h'⟩ | ⟨h, h'⟩) <;> linarith), if_neg (by rintro (⟨h, h'⟩ | ⟨h, h'⟩) <;> linarith)]
  unfold bandPolygon
  rw [u, d, z 4 (Or.inr rfl), z 0 (Or.inl rfl)]
  norm_num

/-! ## C124 -/

/-- C124, `plot_function`: for each index there is a value at a corner, that of the function or, past the last function, the estimate of the error. -/
theorem C124_plot_value {V : Type} (fx : List V) (err : V) (k : Nat) : ∃ v : V, plotValue fx err k = some v ∧ (k < fx.length → fx[k]? = some v) ∧ (fx.length ≤ k → v = err) := by
  unfold plotValue
  by_cases h : k < fx.length
  · rw [if_pos h]
    exact ⟨fx[k], List.getElem?_eq_getElem h, fun _ => List.getElem?_eq_getElem h, fun h' => absurd h (by omega)⟩
  · rw [if_neg h]
    exact ⟨err, rfl, fun h' => absurd h' h, fun _ => rfl⟩

/-- C124, finding: `plot_function_slice` has the four values of the function for an index of a function, and reads past its array for each other index, although the other three corners are guarded against it. -/
theorem C124_slice_index {V : Type} (zero : V) (n : Nat) (f0 f1 f2 f3 : List V) (k : Nat) (h0 : f0.length = n) (h1 : f1.length = n) (h2 : f2.length = n) (h3 : f3.length = n) :
    (k < n → ∃ a b c d : V, sliceValues zero f0 f1 f2 f3 k = some (a, b, c, d) ∧ f0[k]? = some a ∧ f1[k]? = some b ∧ f2[k]? = some c ∧ f3[k]? = some d)
    ∧ (n ≤ k → sliceValues zero f0 f1 f2 f3 k = none) := by
  constructor
  · intro hk
    have e0 := List.getElem?_eq_getElem (l := f0) (i := k) (by omega)
    have e1 := List.getElem?_eq_getElem (l := f1) (i := k) (by omega)
    have e2 := List.getElem?_eq_getElem (l := f2) (i := k) (by omega)
    have e3 := List.getElem?_eq_getElem (l := f3) (i := k) (by omega)
    refine ⟨_, _, _, _, ?_, e0, e1, e2, e3⟩
    unfold sliceValues
    rw [e0]
    simp only [h1, h2, h3, if_pos hk, e1, e2, e3]
  · intro hk
    unfold sliceValues
    rw [List.getElem?_eq_none (by omega)]

theorem writeDart_spec {V : Type} (vs : List V) : ∀ (dart : List V) (i : Nat), i ≤ dart.length →
    writeDart dart vs i = if i + vs.length ≤ dart.length then some (dart.take i ++ vs ++ dart.drop (i + vs.length)) else none := by
  induction vs with
  | nil =>
    intro dart i hi
    simp [writeDart, hi]
  | cons v vs ih =>
    intro dart i hi
    unfold writeDart
    by_cases h : i < dart.length
    · rw [if_pos h, ih (dart.set i v) (i + 1) (by rw [List.length_set]; omega)]
      simp only [List.length_set, List.length_cons]
      have e : i + 1 + vs.length = i + (vs.length + 1) := by omega
      rw [e]
      by_cases h2 : i + (vs.length + 1) ≤ dart.length
      · rw [if_pos h2, if_pos h2]
        congr 1
        rw [List.take_add_one, List.drop_set_of_lt (by omega), List.getElem?_set_self h, List.take_set_of_le (le_refl i)]
        simp
      · rw [if_neg h2, if_neg h2]
    · rw [if_neg h, if_neg (by simp only [List.length_cons]; omega)]

/-- C124, finding: `plot_function` samples the box into an array of two numbers; in one and two dimensions the point is there, in more it is written past the end of the array. -/
theorem C124_plot_dimensions {V : Type} (a b : V) (x : List V) :
    (x.length ≤ 2 → ∃ d : List V, writeDart [a, b] x 0 = some d ∧ d.length = 2 ∧ d.take x.length = x) ∧ (2 < x.length → writeDart [a, b] x 0 = none) := by
  rw [writeDart_spec x [a, b] 0 (by simp)]
  simp only [Nat.zero_add, List.length_cons, List.length_nil, List.take_zero, List.nil_append]
  constructor
  · intro h
    rw [if_pos h]
    refine ⟨_, rfl, ?_, ?_⟩
    · simp
      omega
    · simp
  · intro h
    rw [if_neg (by omega)]

end VoroCrust
