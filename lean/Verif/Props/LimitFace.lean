import Verif.Props.LimitRing

/-!
# The face between two cells, with several corners at one place
-/

namespace VoroCrust

open Classical Filter Topology

variable {pts : Nat → Nat → ℝ} {n i : Nat} {l : List MeshCorner}

/-- The three points are not on a line. -/
def NotLine (a b c : Nat → ℝ) : Prop :=
  (b 0 - a 0) * (c 1 - a 1) - (b 1 - a 1) * (c 0 - a 0) ≠ 0 ∨ (b 1 - a 1) * (c 2 - a 2) - (b 2 - a 2) * (c 1 - a 1) ≠ 0 ∨ (b 2 - a 2) * (c 0 - a 0) - (b 0 - a 0) * (c 2 - a 2) ≠ 0

theorem squares_zero {a b c : ℝ} (h : a * a + b * b + c * c = 0) : a = 0 ∧ b = 0 ∧ c = 0 := by
  have ha := mul_self_nonneg a
  have hb := mul_self_nonneg b
  have hc := mul_self_nonneg c
  exact ⟨mul_self_eq_zero.1 (by linarith), mul_self_eq_zero.1 (by linarith), mul_self_eq_zero.1 (by linarith)⟩

theorem along_cross {p0 p1 p2 q0 q1 q2 v0 v1 v2 : ℝ} (h1 : v0 * p0 + v1 * p1 + v2 * p2 = 0) (h2 : v0 * q0 + v1 * q1 + v2 * q2 = 0) {n0 n1 n2 : ℝ} (e0 : n0 = p1 * q2 - p2 * q1) (e1 : n1 = p2 * q0 - p0 * q2) (e2 : n2 = p0 * q1 - p1 * q0) :
    (n0 * n0 + n1 * n1 + n2 * n2) * v0 = (v0 * n0 + v1 * n1 + v2 * n2) * n0 ∧ (n0 * n0 + n1 * n1 + n2 * n2) * v1 = (v0 * n0 + v1 * n1 + v2 * n2) * n1 ∧ (n0 * n0 + n1 * n1 + n2 * n2) * v2 = (v0 * n0 + v1 * n1 + v2 * n2) * n2 := by
  have c0 : v1 * n2 - v2 * n1 = 0 := by rw [e1, e2]; linear_combination p0 * h2 - q0 * h1
  have c1 : v2 * n0 - v0 * n2 = 0 := by rw [e0, e2]; linear_combination p1 * h2 - q1 * h1
  have c2 : v0 * n1 - v1 * n0 = 0 := by rw [e0, e1]; linear_combination p2 * h2 - q2 * h1
  refine ⟨?_, ?_, ?_⟩
  · linear_combination n1 * c2 - n2 * c1
  · linear_combination n2 * c0 - n0 * c2
  · linear_combination n0 * c1 - n1 * c0

/-- Two planes at the places where they are nearest to the origin: if both go through a point and are across the same line, they are the same. -/
theorem normals_eq {n0 n1 n2 e0 e1 e2 f0 f1 f2 x0 x1 x2 : ℝ} (hN : n0 * n0 + n1 * n1 + n2 * n2 ≠ 0) (he0 : e0 * e0 + e1 * e1 + e2 * e2 ≠ 0) (hf0 : f0 * f0 + f1 * f1 + f2 * f2 ≠ 0)
    (ae : (n0 * n0 + n1 * n1 + n2 * n2) * e0 = (e0 * n0 + e1 * n1 + e2 * n2) * n0 ∧ (n0 * n0 + n1 * n1 + n2 * n2) * e1 = (e0 * n0 + e1 * n1 + e2 * n2) * n1 ∧ (n0 * n0 + n1 * n1 + n2 * n2) * e2 = (e0 * n0 + e1 * n1 + e2 * n2) * n2)
    (af : (n0 * n0 + n1 * n1 + n2 * n2) * f0 = (f0 * n0 + f1 * n1 + f2 * n2) * n0 ∧ (n0 * n0 + n1 * n1 + n2 * n2) * f1 = (f0 * n0 + f1 * n1 + f2 * n2) * n1 ∧ (n0 * n0 + n1 * n1 + n2 * n2) * f2 = (f0 * n0 + f1 * n1 + f2 * n2) * n2)
    (he : 2 * (x0 * e0 + x1 * e1 + x2 * e2) = e0 * e0 + e1 * e1 + e2 * e2) (hf : 2 * (x0 * f0 + x1 * f1 + x2 * f2) = f0 * f0 + f1 * f1 + f2 * f2) : f0 = e0 ∧ f1 = e1 ∧ f2 = e2 := by
  obtain ⟨a0, a1, a2⟩ := ae
  obtain ⟨b0, b1, b2⟩ := af
  generalize hse : e0 * n0 + e1 * n1 + e2 * n2 = se at a0 a1 a2
  generalize hsf : f0 * n0 + f1 * n1 + f2 * n2 = sf at b0 b1 b2
  generalize n0 * n0 + n1 * n1 + n2 * n2 = N at hN a0 a1 a2 b0 b1 b2
  have hse0 : se ≠ 0 := by
    intro g
    rw [g, zero_mul] at a0 a1 a2
    have z0 := (mul_eq_zero.1 a0).resolve_left hN
    have z1 := (mul_eq_zero.1 a1).resolve_left hN
    have z2 := (mul_eq_zero.1 a2).resolve_left hN
    exact he0 (by rw [z0, z1, z2]; ring)
  have m0 : se * f0 = sf * e0 := mul_left_cancel₀ hN (by linear_combination se * b0 - sf * a0)
  have m1 : se * f1 = sf * e1 := mul_left_cancel₀ hN (by linear_combination se * b1 - sf * a1)
  have m2 : se * f2 = sf * e2 := mul_left_cancel₀ hN (by linear_combination se * b2 - sf * a2)
  have hsq : se * sf * (e0 * e0 + e1 * e1 + e2 * e2) = sf * sf * (e0 * e0 + e1 * e1 + e2 * e2) := by
    have t1 : se * se * (f0 * f0 + f1 * f1 + f2 * f2) = sf * sf * (e0 * e0 + e1 * e1 + e2 * e2) := by linear_combination (se * f0 + sf * e0) * m0 + (se * f1 + sf * e1) * m1 + (se * f2 + sf * e2) * m2
    have t2 : se * se * (f0 * f0 + f1 * f1 + f2 * f2) = se * sf * (e0 * e0 + e1 * e1 + e2 * e2) := by
      rw [← hf, ← he]
      linear_combination 2 * se * (x0 * m0 + x1 * m1 + x2 * m2)
    rw [← t1, t2]
  have hsf0 : sf ≠ 0 := by
    intro g
    rw [g, zero_mul] at m0 m1 m2
    have z0 := (mul_eq_zero.1 m0).resolve_left hse0
    have z1 := (mul_eq_zero.1 m1).resolve_left hse0
    have z2 := (mul_eq_zero.1 m2).resolve_left hse0
    exact hf0 (by rw [z0, z1, z2]; ring)
  have hss : se = sf := mul_right_cancel₀ hsf0 (mul_right_cancel₀ he0 hsq)
  rw [← hss] at m0 m1 m2
  exact ⟨mul_left_cancel₀ hse0 m0, mul_left_cancel₀ hse0 m1, mul_left_cancel₀ hse0 m2⟩

/-- Two bisectors with three points in common that are not on a line are the same. -/
theorem spread_plane {a b c : Nat → ℝ} (h : NotLine a b c) {y u : Nat} (hy : ∃ d, d < 3 ∧ pts y d ≠ pts i d) (hu : ∃ d, d < 3 ∧ pts u d ≠ pts i d) (ya : excess pts i y a = 0) (yb : excess pts i y b = 0) (yc : excess pts i y c = 0)
    (ua : excess pts i u a = 0) (ub : excess pts i u b = 0) (uc : excess pts i u c = 0) : ∀ d, d < 3 → pts u d = pts y d := by
  have nz : ∀ {v : Nat}, (∃ d, d < 3 ∧ pts v d ≠ pts i d) → (pts v 0 - pts i 0) * (pts v 0 - pts i 0) + (pts v 1 - pts i 1) * (pts v 1 - pts i 1) + (pts v 2 - pts i 2) * (pts v 2 - pts i 2) ≠ 0 := by
    rintro v ⟨d, hd, hne⟩ g
    obtain ⟨z0, z1, z2⟩ := squares_zero g
    interval_cases d
    · exact hne (sub_eq_zero.1 z0)
    · exact hne (sub_eq_zero.1 z1)
    · exact hne (sub_eq_zero.1 z2)
  have per : ∀ {v : Nat} {b : Nat → ℝ}, excess pts i v a = 0 → excess pts i v b = 0 → (pts v 0 - pts i 0) * (b 0 - a 0) + (pts v 1 - pts i 1) * (b 1 - a 1) + (pts v 2 - pts i 2) * (b 2 - a 2) = 0 := fun {v b} g1 g2 => by
    unfold excess distSq3 at g1 g2
    linear_combination g2 / 2 - g1 / 2
  have thr : ∀ {v : Nat}, excess pts i v a = 0 → 2 * ((a 0 - pts i 0) * (pts v 0 - pts i 0) + (a 1 - pts i 1) * (pts v 1 - pts i 1) + (a 2 - pts i 2) * (pts v 2 - pts i 2)) =
      (pts v 0 - pts i 0) * (pts v 0 - pts i 0) + (pts v 1 - pts i 1) * (pts v 1 - pts i 1) + (pts v 2 - pts i 2) * (pts v 2 - pts i 2) := fun {v} g => by
    unfold excess distSq3 at g
    linear_combination g
  have hN : ((b 1 - a 1) * (c 2 - a 2) - (b 2 - a 2) * (c 1 - a 1)) * ((b 1 - a 1) * (c 2 - a 2) - (b 2 - a 2) * (c 1 - a 1)) + ((b 2 - a 2) * (c 0 - a 0) - (b 0 - a 0) * (c 2 - a 2)) * ((b 2 - a 2) * (c 0 - a 0) - (b 0 - a 0) * (c 2 - a 2)) +
      ((b 0 - a 0) * (c 1 - a 1) - (b 1 - a 1) * (c 0 - a 0)) * ((b 0 - a 0) * (c 1 - a 1) - (b 1 - a 1) * (c 0 - a 0)) ≠ 0 := by
    intro g
    obtain ⟨z0, z1, z2⟩ := squares_zero g
    rcases h with h | h | h
    · exact h z2
    · exact h z0
    · exact h z1
  obtain ⟨r0, r1, r2⟩ := normals_eq hN (nz hy) (nz hu) (along_cross (per ya yb) (per ya yc) rfl rfl rfl) (along_cross (per ua ub) (per ua uc) rfl rfl rfl) (thr ya) (thr ua)
  intro d hd
  interval_cases d
  · linarith
  · linarith
  · linarith

/-- Two cells have a face in common: three points of the common points are not on a line. -/
def Wide (pts : Nat → Nat → ℝ) (n i y : Nat) : Prop :=
  ∃ a b c, NotLine a b c ∧ ∀ z ∈ [a, b, c], (∀ u, u < n → excess pts i u z ≤ 0) ∧ excess pts i y z = 0

/-- The seeds are at different places. -/
def SeedsApart (pts : Nat → Nat → ℝ) (n : Nat) : Prop := ∀ a b, a < n → b < n → (∀ d, d < 3 → pts a d = pts b d) → a = b

/-- A point inside the face. -/
theorem Wide.inside {y : Nat} (h : Wide pts n i y) (hs : SeedsApart pts n) (hi : i < n) (hy : y < n) (hyi : y ≠ i) : ∃ p, excess pts i y p = 0 ∧ ∀ u, u < n → u ≠ i → u ≠ y → excess pts i u p < 0 := by
  obtain ⟨a, b, c, hsp, hon⟩ := h
  obtain ⟨a1, a2⟩ := hon a (by simp)
  obtain ⟨b1, b2⟩ := hon b (by simp)
  obtain ⟨c1, c2⟩ := hon c (by simp)
  have hav : ∀ u, excess pts i u (fun d => (a d + b d + c d) / 3) = (excess pts i u a + excess pts i u b + excess pts i u c) / 3 := fun u => by
    unfold excess distSq3; ring
  refine ⟨fun d => (a d + b d + c d) / 3, by rw [hav, a2, b2, c2]; norm_num, fun u hu hui huy => ?_⟩
  rw [hav]
  have l1 := a1 u hu
  have l2 := b1 u hu
  have l3 := c1 u hu
  by_contra hge
  have ne : ∀ {v : Nat}, v < n → v ≠ i → ∃ d, d < 3 ∧ pts v d ≠ pts i d := fun {v} hv hvi => by
    by_contra g
    push Not at g
    exact hvi (hs v i hv hi g)
  exact huy (hs u y hu hy (spread_plane hsp (ne hy hyi) (ne hu hui) a2 b2 c2 (by linarith) (by linarith) (by linarith)))

theorem excess_push (pts : Nat → Nat → ℝ) (i y u : Nat) (p : Nat → ℝ) (t : ℝ) : excess pts i u (fun d => p d + t * (pts y d - pts i d)) =
    excess pts i u p + 2 * t * ((pts y 0 - pts i 0) * (pts u 0 - pts i 0) + (pts y 1 - pts i 1) * (pts u 1 - pts i 1) + (pts y 2 - pts i 2) * (pts u 2 - pts i 2)) := by
  unfold excess distSq3; ring

theorem apart_dist (hs : SeedsApart pts n) {y : Nat} (hi : i < n) (hy : y < n) (hyi : y ≠ i) : 0 < distSq3 (pts y) (pts i) := by
  rcases (by rw [distSq3_sq]; positivity : 0 ≤ distSq3 (pts y) (pts i)).lt_or_eq with g | g
  · exact g
  · exfalso
    unfold distSq3 at g
    obtain ⟨z0, z1, z2⟩ := squares_zero g.symm
    refine hyi (hs y i hy hi fun d hd => ?_)
    interval_cases d
    · exact sub_eq_zero.1 z0
    · exact sub_eq_zero.1 z1
    · exact sub_eq_zero.1 z2

/-- A seed whose cell has a face in common is a wall. -/
theorem LimitCell.wall (h : LimitCell pts n i l) (hs : SeedsApart pts n) (hi : i < n) {y : Nat} (hy : y < n) (hyi : y ≠ i) (hw : Wide pts n i y) : ∃ (c : Nat) (q : MeshCorner) (j : Nat), l[c]? = some q ∧ j < 3 ∧ q.seeds j = y := by
  by_contra hno
  push Not at hno
  obtain ⟨p, p0, pn⟩ := hw.inside hs hi hy hyi
  -- a point outside, inside all walls
  have lim : ∀ u, Tendsto (fun k : Nat => excess pts i u (fun d => p d + 1 / ((k : ℝ) + 1) * (pts y d - pts i d))) atTop (𝓝 (excess pts i u p)) := fun u => by
    have ht := tendsto_one_div_add_atTop_nhds_zero_nat (𝕜 := ℝ)
    have := (((ht.const_mul 2).mul_const ((pts y 0 - pts i 0) * (pts u 0 - pts i 0) + (pts y 1 - pts i 1) * (pts u 1 - pts i 1) + (pts y 2 - pts i 2) * (pts u 2 - pts i 2))).const_add (excess pts i u p))
    simp only [mul_zero, zero_mul, add_zero] at this
    refine this.congr fun k => ?_
    rw [excess_push]
  have hev : ∀ᶠ k : Nat in atTop, ∀ u ∈ Finset.range n, u ≠ i → u ≠ y → excess pts i u (fun d => p d + 1 / ((k : ℝ) + 1) * (pts y d - pts i d)) < 0 := by
    rw [Filter.eventually_all_finset]
    intro u hu
    by_cases hui : u = i
    · exact Filter.Eventually.of_forall fun k g => absurd hui g
    by_cases huy : u = y
    · exact Filter.Eventually.of_forall fun k _ g => absurd huy g
    exact ((lim u).eventually_lt_const (pn u (Finset.mem_range.1 hu) hui huy)).mono fun k hk _ _ => hk
  obtain ⟨k, hk⟩ := hev.exists
  obtain ⟨v, hv, e⟩ := h.bound (fun d => p d + 1 / ((k : ℝ) + 1) * (pts y d - pts i d)) fun c q j hq hj => (hk _ (Finset.mem_range.2 (h.range hq hj).1) (h.range hq hj).2 (hno c q j hq hj)).le
  have hle := h.hull_le hv hy
  rw [excess_congr e, excess_push, p0] at hle
  have hpos := apart_dist hs hi hy hyi
  have ht : (0 : ℝ) < 1 / ((k : ℝ) + 1) := by positivity
  have := mul_pos ht hpos
  unfold distSq3 at this
  nlinarith

/-- Every corner on a face is at the place of one that names it. -/
theorem LimitCell.named (h : LimitCell pts n i l) (hs : SeedsApart pts n) (hi : i < n) {y : Nat} (hy : y < n) (hyi : y ≠ i) (hw : Wide pts n i y) {c : Nat} {q : MeshCorner} (hq : l[c]? = some q) (hon : excess pts i y q.x = 0) :
    ∃ (c' : Nat) (q' : MeshCorner) (j : Nat), l[c']? = some q' ∧ j < 3 ∧ q'.seeds j = y ∧ ∀ d, d < 3 → q'.x d = q.x d := by
  obtain ⟨cw, qw, jw, w1, w2, w3⟩ := h.wall hs hi hy hyi hw
  by_contra hno
  push Not at hno
  obtain ⟨p, p0, pn⟩ := hw.inside hs hi hy hyi
  obtain ⟨lam, X, hE, hlam, hX⟩ := h.limit
  have hly : Tendsto (fun k => lam k y) atTop (𝓝 1) := by rw [← w3]; exact hlam cw qw jw w1 w2
  -- the corners of the face are below
  obtain ⟨μ, hμ, hbelow⟩ : ∃ μ : ℝ, 0 < μ ∧ ∀ (c' : Nat) (q' : MeshCorner) (j : Nat), l[c']? = some q' → j < 3 → q'.seeds j = y → peak pts i q q'.x < -μ := by
    have : ∀ c' : Nat, ∃ μ : ℝ, 0 < μ ∧ ∀ (q' : MeshCorner) (j : Nat), l[c']? = some q' → j < 3 → q'.seeds j = y → peak pts i q q'.x < -μ := fun c' => by
      by_cases hc : ∃ (q' : MeshCorner) (j : Nat), l[c']? = some q' ∧ j < 3 ∧ q'.seeds j = y
      · obtain ⟨q', j, e1, e2, e3⟩ := hc
        have hneg : peak pts i q q'.x < 0 := by
          by_contra g
          obtain ⟨d, hd, hne⟩ := hno c' q' j e1 e2 e3
          exact hne (h.peak_place hq (fun u hu => h.near c' q' u e1 hu) (not_lt.1 g) d hd)
        refine ⟨-peak pts i q q'.x / 2, by linarith, fun q2 j2 f1 _ _ => ?_⟩
        rw [e1] at f1
        obtain rfl := Option.some.inj f1
        linarith
      · push Not at hc
        exact ⟨1, one_pos, fun q' j e1 e2 e3 => absurd e3 (hc q' j e1 e2)⟩
    choose μ m1 m2 using this
    obtain ⟨ν, hν, hνl⟩ : ∃ ν : ℝ, 0 < ν ∧ ∀ c', c' < l.length → ν ≤ μ c' := by
      generalize l.length = L
      induction L with
      | zero => exact ⟨1, one_pos, by omega⟩
      | succ L ih =>
        obtain ⟨ν, hν, hle⟩ := ih
        refine ⟨min ν (μ L), lt_min hν (m1 L), fun c' hc' => ?_⟩
        by_cases g : c' = L
        · rw [g]; exact min_le_right _ _
        · exact (min_le_left _ _).trans (hle c' (by omega))
    refine ⟨ν, hν, fun c' q' j e1 e2 e3 => ?_⟩
    have := m2 c' q' j e1 e2 e3
    have := hνl c' (List.getElem?_eq_some_iff.1 e1).1
    linarith
  -- a point near the corner, inside the face
  obtain ⟨s, hs0, hs1, hsμ⟩ : ∃ s : ℝ, 0 < s ∧ s ≤ 1 ∧ -μ / 2 < s * peak pts i q p := by
    refine ⟨min 1 (μ / (2 * (|peak pts i q p| + 1))), lt_min one_pos (by positivity), min_le_left _ _, ?_⟩
    have h1 := min_le_right 1 (μ / (2 * (|peak pts i q p| + 1)))
    have h2 : 0 ≤ min 1 (μ / (2 * (|peak pts i q p| + 1))) := (lt_min one_pos (by positivity)).le
    have h3 := neg_abs_le (peak pts i q p)
    have h4 : μ / (2 * (|peak pts i q p| + 1)) * (|peak pts i q p| + 1) = μ / 2 := by field_simp
    have h5 := abs_nonneg (peak pts i q p)
    have h6 : 0 < μ / (2 * (|peak pts i q p| + 1)) := by positivity
    nlinarith
  let w : Nat → ℝ := fun d => q.x d + s * (p d - q.x d)
  have hwe : ∀ u, excess pts i u w = (1 - s) * excess pts i u q.x + s * excess pts i u p := fun u => excess_between fun d _ => rfl
  have hwy : excess pts i y w = 0 := by rw [hwe, hon, p0]; ring
  have hwn : ∀ u, u < n → u ≠ i → u ≠ y → excess pts i u w < 0 := fun u hu hui huy => by
    rw [hwe]
    have := h.near c q u hq hu
    have := pn u hu hui huy
    nlinarith
  have hwp : peak pts i q w = s * peak pts i q p := by
    have := h.peak_self hq
    unfold peak at this ⊢
    rw [hwe, hwe, hwe]
    linear_combination (1 - s) * this
  -- moved onto the bisector of the copy
  let w' : Nat → Nat → ℝ := fun k d => w d + (lam k y - 1) / 2 * (pts y d - pts i d)
  have hw' : ∀ d, d < 3 → Tendsto (fun k => w' k d) atTop (𝓝 (w d)) := fun d _ => by
    have := ((((hly.sub_const 1).div_const 2).mul_const (pts y d - pts i d)).const_add (w d))
    simpa using this
  have hev1 : ∀ᶠ k in atTop, ∀ u ∈ Finset.range n, u ≠ i → u ≠ y → excess pts i u (w' k) < 0 := by
    rw [Filter.eventually_all_finset]
    intro u hu
    by_cases hui : u = i
    · exact Filter.Eventually.of_forall fun k g => absurd hui g
    by_cases huy : u = y
    · exact Filter.Eventually.of_forall fun k _ g => absurd huy g
    exact ((excess_tendsto hw').eventually_lt_const (hwn u (Finset.mem_range.1 hu) hui huy)).mono fun k hk _ _ => hk
  have peak_lim : ∀ {u : Nat → Nat → ℝ} {v : Nat → ℝ}, (∀ d, d < 3 → Tendsto (fun k => u k d) atTop (𝓝 (v d))) → Tendsto (fun k => peak pts i q (u k)) atTop (𝓝 (peak pts i q v)) := fun {u v} g => by
    unfold peak
    exact ((excess_tendsto g).add (excess_tendsto g)).add (excess_tendsto g)
  have hev2 : ∀ᶠ k in atTop, -μ / 2 < peak pts i q (w' k) := (peak_lim hw').eventually_const_lt (by rw [hwp]; exact hsμ)
  have hev3 : ∀ᶠ k in atTop, ∀ c' ∈ Finset.range l.length, ∀ (q' : MeshCorner) (j : Nat), l[c']? = some q' → j < 3 → q'.seeds j = y → peak pts i q (X k c') < -μ / 2 := by
    rw [Filter.eventually_all_finset]
    intro c' _
    by_cases hc : ∃ (q' : MeshCorner) (j : Nat), l[c']? = some q' ∧ j < 3 ∧ q'.seeds j = y
    · obtain ⟨q', j, e1, e2, e3⟩ := hc
      exact ((peak_lim fun d hd => hX c' q' d e1 hd).eventually_lt_const (show peak pts i q q'.x < -μ / 2 by have := hbelow c' q' j e1 e2 e3; linarith)).mono fun k hk _ _ _ _ _ => hk
    · push Not at hc
      exact Filter.Eventually.of_forall fun k q' j e1 e2 e3 => absurd e3 (hc q' j e1 e2)
  obtain ⟨k, ⟨⟨⟨k0, kE⟩, k1⟩, k2⟩, k3⟩ := (((hE.and hev1).and hev2).and hev3).exists
  have hzero : excess (stretch pts i (lam k)) i y (w' k) = 0 := by
    rw [excess_stretch, excess_push, hwy]
    unfold distSq3
    ring
  have hin : ∀ u, u < n → excess (stretch pts i (lam k)) i u (w' k) ≤ 0 := fun u hu => by
    by_cases huy : u = y
    · rw [huy, hzero]
    by_cases hui : u = i
    · rw [hui]; unfold excess; simp
    have l1 := k1 u (Finset.mem_range.2 hu) hui huy
    have l2 := k0 u
    have l3 : 0 ≤ distSq3 (pts u) (pts i) := by rw [distSq3_sq]; positivity
    rw [excess_stretch]
    nlinarith [mul_nonneg (sub_nonneg.2 l2) l3]
  obtain ⟨v, hv, e⟩ := (kE.face_hull hy hyi).2 ⟨hin, hzero⟩
  have hsub : convexHull ℝ {v | ∃ (c : Nat) (q : MeshCorner), (moved l (X k))[c]? = some q ∧ q.x = v ∧ ∃ j, j < 3 ∧ q.seeds j = y} ⊆ {v | peak pts i q v < -μ / 2} := convexHull_min (by
    rintro v ⟨c', q', e1, rfl, j, e2, e3⟩
    obtain ⟨r, f1, rfl⟩ := moved_get.1 e1
    exact k3 c' (Finset.mem_range.2 (List.getElem?_eq_some_iff.1 f1).1) r j f1 e2 e3) (by
    intro u hu v hv s t hs ht hst
    rw [Set.mem_ofPred_eq] at hu hv ⊢
    rw [peak_affine pts i q u v s t hst]
    rcases hs.eq_or_lt with g | g
    · rw [← g] at hst ⊢; rw [show t = 1 by linarith]; linarith
    · nlinarith)
  have := hsub hv
  rw [Set.mem_ofPred_eq, peak_congr e] at this
  linarith

theorem hull_proj {S T : Set (Nat → ℝ)} (h : ∀ u ∈ S, ∃ v ∈ T, ∀ d, d < 3 → v d = u d) {z : Nat → ℝ} (hz : ∃ p ∈ convexHull ℝ S, ∀ k, k < 3 → p k = z k) : ∃ p ∈ convexHull ℝ T, ∀ k, k < 3 → p k = z k := by
  let π : (Nat → ℝ) →ₗ[ℝ] (Fin 3 → ℝ) := LinearMap.pi fun k => LinearMap.proj k.val
  have hπ : ∀ (S : Set (Nat → ℝ)), (∃ p ∈ convexHull ℝ S, ∀ k, k < 3 → p k = z k) ↔ π z ∈ convexHull ℝ (π '' S) := fun S => by
    rw [← π.image_convexHull]
    constructor
    · rintro ⟨p, hp, e⟩
      exact ⟨p, hp, funext fun k => e k.val k.isLt⟩
    · rintro ⟨p, hp, e⟩
      exact ⟨p, hp, fun k hk => congrFun e ⟨k, hk⟩⟩
  rw [hπ] at hz ⊢
  refine convexHull_mono ?_ hz
  rintro _ ⟨u, hu, rfl⟩
  obtain ⟨v, hv, e⟩ := h u hu
  exact ⟨v, hv, funext fun k => e k.val k.isLt⟩

/-- The corners that name a face span it. -/
theorem LimitCell.face_hull (h : LimitCell pts n i l) (hs : SeedsApart pts n) (hi : i < n) {y : Nat} (hy : y < n) (hyi : y ≠ i) (hw : Wide pts n i y) {z : Nat → ℝ} :
    (∃ p ∈ convexHull ℝ {v | ∃ (c : Nat) (q : MeshCorner), l[c]? = some q ∧ q.x = v ∧ ∃ j, j < 3 ∧ q.seeds j = y}, ∀ k, k < 3 → p k = z k) ↔ (∀ u, u < n → excess pts i u z ≤ 0) ∧ excess pts i y z = 0 := by
  constructor
  · rintro ⟨p, hp, e⟩
    have hsub : {v | ∃ (c : Nat) (q : MeshCorner), l[c]? = some q ∧ q.x = v ∧ ∃ j, j < 3 ∧ q.seeds j = y} ⊆ {v | ∃ (c : Nat) (q : MeshCorner), l[c]? = some q ∧ q.x = v} := by
      rintro v ⟨c, q, h1, h2, -⟩
      exact ⟨c, q, h1, h2⟩
    refine ⟨fun u hu => by rw [← excess_congr e]; exact h.hull_le (convexHull_mono hsub hp) hu, ?_⟩
    have : convexHull ℝ {v | ∃ (c : Nat) (q : MeshCorner), l[c]? = some q ∧ q.x = v ∧ ∃ j, j < 3 ∧ q.seeds j = y} ⊆ {v | excess pts i y v = 0} := convexHull_min (by
      rintro v ⟨c, q, h1, rfl, j, h2, rfl⟩
      exact h.on c q j h1 h2) (by
      intro u hu v hv s t hs ht hst
      rw [Set.mem_ofPred_eq] at hu hv ⊢
      rw [excess_affine pts i y u v s t hst, hu, hv]
      ring)
    rw [← excess_congr e]
    exact this hp
  · rintro ⟨hz, hz0⟩
    obtain ⟨p, hp, e⟩ := h.span hz
    have h1 := hull_zero (excess_affine pts i y) (by
      rintro v ⟨c, q, hq, rfl⟩
      exact h.near c q y hq hy) hp (by rw [excess_congr e]; exact hz0)
    refine hull_proj ?_ ⟨p, h1, e⟩
    rintro u ⟨⟨c, q, hq, rfl⟩, hu⟩
    obtain ⟨c', q', j, e1, e2, e3, e4⟩ := h.named hs hi hy hyi hw hq hu
    exact ⟨q'.x, ⟨c', q', e1, rfl, j, e2, e3⟩, e4⟩

/-- Three corners at different places are not on a line. -/
theorem LimitCell.spread (h : LimitCell pts n i l) {a b c : Nat} {qa qb qc : MeshCorner} (ha : l[a]? = some qa) (hb : l[b]? = some qb) (hc : l[c]? = some qc) (hab : ¬ ∀ d, d < 3 → qa.x d = qb.x d) (hac : ¬ ∀ d, d < 3 → qa.x d = qc.x d) (hbc : ¬ ∀ d, d < 3 → qb.x d = qc.x d) :
    NotLine qa.x qb.x qc.x := by
  by_contra hsp
  unfold NotLine at hsp
  push Not at hsp
  obtain ⟨s1, s2, s3⟩ := hsp
  -- no corner is between two others
  have mid : ∀ {a b c : Nat} {qa qb qc : MeshCorner} {s : ℝ}, l[a]? = some qa → l[b]? = some qb → l[c]? = some qc → (¬ ∀ d, d < 3 → qa.x d = qb.x d) → (¬ ∀ d, d < 3 → qc.x d = qb.x d) → 0 ≤ s → s ≤ 1 → (∀ d, d < 3 → qb.x d = qa.x d + s * (qc.x d - qa.x d)) → False := by
    intro a b c qa qb qc s ha hb hc hab hcb h0 h1 he
    have na : peak pts i qb qa.x < 0 := by
      by_contra g
      exact hab (h.peak_place hb (fun y hy => h.near a qa y ha hy) (not_lt.1 g))
    have nc : peak pts i qb qc.x < 0 := by
      by_contra g
      exact hcb (h.peak_place hb (fun y hy => h.near c qc y hc hy) (not_lt.1 g))
    have hz := h.peak_self hb
    unfold peak at na nc hz
    rw [excess_between he, excess_between he, excess_between he] at hz
    rcases h0.eq_or_lt with g | g
    · rw [← g] at hz; linarith
    · nlinarith
  -- the third on the line through two
  obtain ⟨s, hse⟩ : ∃ s : ℝ, ∀ d, d < 3 → qc.x d = qa.x d + s * (qb.x d - qa.x d) := by
    push Not at hab
    obtain ⟨d, hd, hne⟩ := hab
    refine ⟨(qc.x d - qa.x d) / (qb.x d - qa.x d), fun d' hd' => ?_⟩
    have hd0 : qb.x d - qa.x d ≠ 0 := fun g => hne (by linarith)
    have key : (qb.x d' - qa.x d') * (qc.x d - qa.x d) = (qb.x d - qa.x d) * (qc.x d' - qa.x d') := by
      interval_cases d <;> interval_cases d' <;> first | ring1 | linear_combination s1 | linear_combination -s1 | linear_combination s2 | linear_combination -s2 | linear_combination s3 | linear_combination -s3
    field_simp
    linarith
  by_cases g0 : s < 0
  · -- the first is between
    refine mid (s := 1 / (1 - s)) hb ha hc (fun g => hab fun d hd => (g d hd).symm) (fun g => hac fun d hd => (g d hd).symm) (div_nonneg zero_le_one (by linarith)) ((div_le_one (by linarith)).2 (by linarith)) fun d hd => ?_
    rw [hse d hd]
    have : (1 - s) ≠ 0 := by linarith
    field_simp
    ring
  · by_cases g1 : s ≤ 1
    · exact mid ha hc hb hac hbc (not_lt.1 g0) g1 hse
    · refine mid (s := 1 / s) ha hb hc hab (fun g => hbc fun d hd => (g d hd).symm) (by push Not at g0; positivity) ((div_le_one (by linarith)).2 (by linarith)) fun d hd => ?_
      rw [hse d hd]
      have : s ≠ 0 := by intro g; rw [g] at g1; norm_num at g1
      field_simp
      ring

end VoroCrust
