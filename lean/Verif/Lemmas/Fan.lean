import Verif.Lemmas.Tetra
import Mathlib.Analysis.Convex.Combination

/-!
# A polytope is the union of the tetrahedra over fans of its faces

A polytope around a point `p` is given by walls `g y z ≤ 0`.  Each face is given by its vertices in the order in which they follow each other along the edges.  The tetrahedra of `p`, the first vertex of a face and two consecutive
other ones cover the polytope and overlap only in sets without volume.
-/

namespace VoroCrust

open MeasureTheory

/-- Walls around a point. -/
structure Walls where
  S : Finset Nat
  N : Nat → Fin 3 → ℝ
  c : Nat → ℝ
  p : Fin 3 → ℝ

/-- The height above a wall. -/
def Walls.g (W : Walls) (y : Nat) (z : Fin 3 → ℝ) : ℝ := W.N y 0 * z 0 + W.N y 1 * z 1 + W.N y 2 * z 2 + W.c y

/-- The polytope. -/
def Walls.P (W : Walls) : Set (Fin 3 → ℝ) := {z | ∀ y ∈ W.S, W.g y z ≤ 0}

/-- The polytope is bounded, `p` is inside and no two walls coincide. -/
structure Walls.Proper (W : Walls) : Prop where
  bounded : ∃ B : ℝ, ∀ z ∈ W.P, ∀ k, |z k| ≤ B
  inside : ∀ y ∈ W.S, W.g y W.p < 0
  differ : ∀ y ∈ W.S, ∀ y' ∈ W.S, y ≠ y' → ∃ z, W.g y z * W.g y' W.p ≠ W.g y' z * W.g y W.p

variable {W : Walls}

theorem Walls.g_line (y : Nat) {o f q : Fin 3 → ℝ} {s : ℝ} (h : ∀ k, q k = o k + s * (f k - o k)) : W.g y q = W.g y o + s * (W.g y f - W.g y o) := by
  unfold Walls.g
  rw [h 0, h 1, h 2]
  ring

/-- From a point of the polytope through another one, the polytope is left through a wall that the first point is not on. -/
theorem Walls.Proper.exit (h : W.Proper) {o q : Fin 3 → ℝ} (ho : o ∈ W.P) (hq : q ∈ W.P) (hne : o ≠ q) :
    ∃ y ∈ W.S, ∃ f ∈ W.P, ∃ s : ℝ, 0 < s ∧ s ≤ 1 ∧ W.g y f = 0 ∧ W.g y o < 0 ∧ ∀ k, q k = o k + s * (f k - o k) := by
  have hray : ∀ (t : ℝ) (y : Nat), W.g y (fun k => o k + t * (q k - o k)) = W.g y o + t * (W.g y q - W.g y o) := fun t y => W.g_line y fun k => rfl
  have hex : (W.S.filter fun y => 0 < W.g y q - W.g y o).Nonempty := by
    by_contra hcon
    rw [Finset.not_nonempty_iff_eq_empty, Finset.filter_eq_empty_iff] at hcon
    obtain ⟨B, hB⟩ := h.bounded
    obtain ⟨k, hk⟩ := Function.ne_iff.1 hne
    have hd : 0 < |q k - o k| := abs_pos.2 (sub_ne_zero.2 (Ne.symm hk))
    have hB0 : 0 ≤ B := le_trans (abs_nonneg _) (hB o ho k)
    have hin : ∀ t : ℝ, 0 ≤ t → |o k + t * (q k - o k)| ≤ B := fun t ht => hB (fun k => o k + t * (q k - o k)) (fun y hy => by
      rw [hray]
      have h1 := hcon hy
      have h2 := ho y hy
      nlinarith [not_lt.1 h1]) k
    have h1 := hin ((2 * B + 1) / |q k - o k|) (by positivity)
    have h2 := hB o ho k
    have h3 : |(2 * B + 1) / |q k - o k| * (q k - o k)| = 2 * B + 1 := by
      rw [abs_mul, abs_of_nonneg (by positivity : (0 : ℝ) ≤ (2 * B + 1) / |q k - o k|), div_mul_cancel₀ _ hd.ne']
    have h4 := abs_sub_abs_le_abs_sub ((2 * B + 1) / |q k - o k| * (q k - o k)) (-o k)
    rw [abs_neg, h3, sub_neg_eq_add, add_comm (_ * _) (o k)] at h4
    linarith
  obtain ⟨y, hy, hmin⟩ := Finset.exists_min_image _ (fun y => -W.g y o / (W.g y q - W.g y o)) hex
  rw [Finset.mem_filter] at hy
  obtain ⟨hyS, hpos⟩ := hy
  have hyq := hq y hyS
  set τ := -W.g y o / (W.g y q - W.g y o) with hτ
  have hτ1 : 1 ≤ τ := by rw [hτ, one_le_div hpos]; linarith
  have hτp : 0 < τ := by linarith
  refine ⟨y, hyS, fun k => o k + τ * (q k - o k), fun y' hy' => ?_, τ⁻¹, by positivity, inv_le_one_of_one_le₀ hτ1, ?_, by linarith, fun k => ?_⟩
  · rw [hray]
    by_cases hp : 0 < W.g y' q - W.g y' o
    · have h1 := hmin y' (Finset.mem_filter.2 ⟨hy', hp⟩)
      rw [le_div_iff₀ hp] at h1
      linarith
    · have h2 := ho y' hy'
      nlinarith
  · rw [hray, hτ, div_mul_cancel₀ _ hpos.ne']
    ring
  · field_simp
    ring

/-- Two walls meet in a line. -/
theorem Walls.Proper.line (h : W.Proper) {y y' : Nat} (hy : y ∈ W.S) (hy' : y' ∈ W.S) (hne : y ≠ y') {z1 z2 z3 : Fin 3 → ℝ} (h1 : W.g y z1 = 0) (h2 : W.g y z2 = 0) (h3 : W.g y z3 = 0) (h1' : W.g y' z1 = 0)
    (h2' : W.g y' z2 = 0) (h3' : W.g y' z3 = 0) (h12 : z1 ≠ z2) : ∃ t : ℝ, ∀ k, z3 k = z1 k + t * (z2 k - z1 k) := by
  set D0 := W.N y 1 * W.N y' 2 - W.N y 2 * W.N y' 1 with hD0
  set D1 := W.N y 2 * W.N y' 0 - W.N y 0 * W.N y' 2 with hD1
  set D2 := W.N y 0 * W.N y' 1 - W.N y 1 * W.N y' 0 with hD2
  have hD : D0 ^ 2 + D1 ^ 2 + D2 ^ 2 ≠ 0 := by
    intro h0
    have e0 : D0 = 0 := by nlinarith [sq_nonneg D0, sq_nonneg D1, sq_nonneg D2]
    have e1 : D1 = 0 := by nlinarith [sq_nonneg D0, sq_nonneg D1, sq_nonneg D2]
    have e2 : D2 = 0 := by nlinarith [sq_nonneg D0, sq_nonneg D1, sq_nonneg D2]
    obtain ⟨z, hz⟩ := h.differ y hy y' hy' hne
    apply hz
    have k1 : W.g y z * W.g y' W.p - W.g y' z * W.g y W.p = (W.g y z - W.g y z1) * (W.g y' W.p - W.g y' z1) - (W.g y' z - W.g y' z1) * (W.g y W.p - W.g y z1) := by rw [h1, h1']; ring
    have k2 : (W.g y z - W.g y z1) * (W.g y' W.p - W.g y' z1) - (W.g y' z - W.g y' z1) * (W.g y W.p - W.g y z1) =
        D0 * ((z 1 - z1 1) * (W.p 2 - z1 2) - (z 2 - z1 2) * (W.p 1 - z1 1)) + D1 * ((z 2 - z1 2) * (W.p 0 - z1 0) - (z 0 - z1 0) * (W.p 2 - z1 2)) + D2 * ((z 0 - z1 0) * (W.p 1 - z1 1) - (z 1 - z1 1) * (W.p 0 - z1 0)) := by
      simp only [Walls.g, hD0, hD1, hD2]
      ring
    rw [e0, e1, e2] at k2
    linarith
  -- a vector along both walls is a multiple of the vector product
  have par : ∀ {z : Fin 3 → ℝ}, W.g y z = 0 → W.g y' z = 0 → ∀ k : Fin 3, (z k - z1 k) * (D0 ^ 2 + D1 ^ 2 + D2 ^ 2) = ((z 0 - z1 0) * D0 + (z 1 - z1 1) * D1 + (z 2 - z1 2) * D2) * ![D0, D1, D2] k := by
    intro z hz hz' k
    have a1 : W.N y 0 * (z 0 - z1 0) + W.N y 1 * (z 1 - z1 1) + W.N y 2 * (z 2 - z1 2) = 0 := by
      have : W.g y z - W.g y z1 = 0 := by rw [hz, h1, sub_zero]
      unfold Walls.g at this
      linarith
    have a2 : W.N y' 0 * (z 0 - z1 0) + W.N y' 1 * (z 1 - z1 1) + W.N y' 2 * (z 2 - z1 2) = 0 := by
      have : W.g y' z - W.g y' z1 = 0 := by rw [hz', h1', sub_zero]
      unfold Walls.g at this
      linarith
    have b0 : (z 1 - z1 1) * D2 - (z 2 - z1 2) * D1 = 0 := by rw [hD1, hD2]; linear_combination W.N y 0 * a2 - W.N y' 0 * a1
    have b1 : (z 2 - z1 2) * D0 - (z 0 - z1 0) * D2 = 0 := by rw [hD0, hD2]; linear_combination W.N y 1 * a2 - W.N y' 1 * a1
    have b2 : (z 0 - z1 0) * D1 - (z 1 - z1 1) * D0 = 0 := by rw [hD0, hD1]; linear_combination W.N y 2 * a2 - W.N y' 2 * a1
    fin_cases k
    · simp
      linear_combination D1 * b2 - D2 * b1
    · simp
      linear_combination D2 * b0 - D0 * b2
    · simp
      linear_combination D0 * b1 - D1 * b0
  have hne2 : (z2 0 - z1 0) * D0 + (z2 1 - z1 1) * D1 + (z2 2 - z1 2) * D2 ≠ 0 := by
    intro h0
    apply h12
    ext k
    have := par h2 h2' k
    rw [h0, zero_mul] at this
    linarith [(mul_eq_zero.1 this).resolve_right hD]
  refine ⟨((z3 0 - z1 0) * D0 + (z3 1 - z1 1) * D1 + (z3 2 - z1 2) * D2) / ((z2 0 - z1 0) * D0 + (z2 1 - z1 1) * D1 + (z2 2 - z1 2) * D2), fun k => ?_⟩
  have e2 := par h2 h2' k
  have e3 := par h3 h3' k
  have : (z3 k - z1 k) * ((z2 0 - z1 0) * D0 + (z2 1 - z1 1) * D1 + (z2 2 - z1 2) * D2) = ((z3 0 - z1 0) * D0 + (z3 1 - z1 1) * D1 + (z3 2 - z1 2) * D2) * (z2 k - z1 k) := by
    apply mul_right_cancel₀ hD
    linear_combination ((z2 0 - z1 0) * D0 + (z2 1 - z1 1) * D1 + (z2 2 - z1 2) * D2) * e3 - ((z3 0 - z1 0) * D0 + (z3 1 - z1 1) * D1 + (z3 2 - z1 2) * D2) * e2
  rw [div_mul_eq_mul_div, ← this, mul_div_assoc, div_self hne2]
  ring

/-- A corner: no other point is on all the walls through it. -/
def Walls.Corner (W : Walls) (z : Fin 3 → ℝ) : Prop := z ∈ W.P ∧ ∀ u, (∀ a ∈ W.S, W.g a z = 0 → W.g a u = 0) → u = z

/-- A corner is not between two points of the polytope. -/
theorem Walls.Corner.between {a m b : Fin 3 → ℝ} (hm : W.Corner m) (ha : a ∈ W.P) (hb : b ∈ W.P) (hab : a ≠ b) {t : ℝ} (ht : 0 < t) (ht1 : t < 1) (hl : ∀ k, m k = a k + t * (b k - a k)) : False := by
  have h1 := hm.2 a fun e he hem => by
    have hg := W.g_line e hl
    rw [hem] at hg
    have ha0 := ha e he
    have hb0 := hb e he
    nlinarith
  apply hab
  ext k
  have := hl k
  rw [← h1] at this
  have h2 : t * (b k - a k) = 0 := by linarith
  linarith [(mul_eq_zero.1 h2).resolve_left ht.ne']

/-- Two walls meet in two corners at most. -/
theorem Walls.Proper.two (h : W.Proper) {y y' : Nat} (hy : y ∈ W.S) (hy' : y' ∈ W.S) (hne : y ≠ y') {z1 z2 z3 : Fin 3 → ℝ} (hc1 : W.Corner z1) (hc2 : W.Corner z2) (hc3 : W.Corner z3) (h1 : W.g y z1 = 0) (h2 : W.g y z2 = 0)
    (h3 : W.g y z3 = 0) (h1' : W.g y' z1 = 0) (h2' : W.g y' z2 = 0) (h3' : W.g y' z3 = 0) : z1 = z2 ∨ z1 = z3 ∨ z2 = z3 := by
  by_contra hcon
  push Not at hcon
  obtain ⟨h12, h13, h23⟩ := hcon
  obtain ⟨t, ht⟩ := h.line hy hy' hne h1 h2 h3 h1' h2' h3' h12
  rcases lt_trichotomy t 0 with h0 | h0 | h0
  · -- z1 between z3 and z2
    refine hc1.between hc3.1 hc2.1 h23.symm (t := -t / (1 - t)) (div_pos (by linarith) (by linarith)) (by rw [div_lt_one (by linarith)]; linarith) fun k => ?_
    rw [ht k]
    have : (1 - t) ≠ 0 := by linarith
    field_simp
    ring
  · exact h13 (by ext k; rw [ht k, h0]; ring)
  · rcases lt_trichotomy t 1 with g0 | g0 | g0
    · exact hc3.between hc1.1 hc2.1 h12 h0 g0 ht
    · exact h23 (by ext k; rw [ht k, g0]; ring)
    · refine hc2.between hc1.1 hc3.1 h13 (t := t⁻¹) (by positivity) (inv_lt_one_of_one_lt₀ g0) fun k => ?_
      rw [ht k]
      field_simp
      ring

theorem squares_pos {a b c : ℝ} (h : a ≠ 0 ∨ b ≠ 0 ∨ c ≠ 0) : 0 < a ^ 2 + b ^ 2 + c ^ 2 := by
  rcases h with h | h | h <;> positivity

theorem opposite_signs {X Y p q : ℝ} (hp : p < 0) (hq : q < 0) (e : X * p + Y * q = 0) : (0 < X → Y < 0) ∧ (X < 0 → 0 < Y) ∧ (X = 0 → Y = 0) := by
  refine ⟨fun hX => ?_, fun hX => ?_, fun hX => ?_⟩
  · by_contra hY; nlinarith
  · by_contra hY; nlinarith
  · rw [hX, zero_mul, zero_add] at e; exact (mul_eq_zero.1 e).resolve_right hq.ne

/-- No three vectors of a plane are each an edge of the cone of all three. -/
theorem no_three_edges {n0 n1 n2 a0 a1 a2 b0 b1 b2 c0 c1 c2 p0 p1 p2 q0 q1 q2 r0 r1 r2 : ℝ} (hn : 0 < n0 ^ 2 + n1 ^ 2 + n2 ^ 2) (ha : a0 ≠ 0 ∨ a1 ≠ 0 ∨ a2 ≠ 0) (yu : n0 * a0 + n1 * a1 + n2 * a2 = 0) (yw : n0 * b0 + n1 * b1 + n2 * b2 = 0)
    (yx : n0 * c0 + n1 * c1 + n2 * c2 = 0) (u1 : p0 * a0 + p1 * a1 + p2 * a2 = 0) (w2 : q0 * b0 + q1 * b1 + q2 * b2 = 0) (x3 : r0 * c0 + r1 * c1 + r2 * c2 = 0) (w1 : p0 * b0 + p1 * b1 + p2 * b2 < 0) (x1 : p0 * c0 + p1 * c1 + p2 * c2 < 0)
    (u2 : q0 * a0 + q1 * a1 + q2 * a2 < 0) (x2 : q0 * c0 + q1 * c1 + q2 * c2 < 0) (u3 : r0 * a0 + r1 * a1 + r2 * a2 < 0) (w3 : r0 * b0 + r1 * b1 + r2 * b2 < 0) : False := by
  have hdet : a0 * (b1 * c2 - b2 * c1) + a1 * (b2 * c0 - b0 * c2) + a2 * (b0 * c1 - b1 * c0) = 0 := by
    apply mul_right_cancel₀ hn.ne'
    linear_combination (n0 * (b1 * c2 - b2 * c1) + n1 * (b2 * c0 - b0 * c2) + n2 * (b0 * c1 - b1 * c0)) * yu + (n0 * (c1 * a2 - c2 * a1) + n1 * (c2 * a0 - c0 * a2) + n2 * (c0 * a1 - c1 * a0)) * yw +
      (n0 * (a1 * b2 - a2 * b1) + n1 * (a2 * b0 - a0 * b2) + n2 * (a0 * b1 - a1 * b0)) * yx
  obtain ⟨A, hA⟩ : ∃ A, A = n0 * (b1 * c2 - b2 * c1) + n1 * (b2 * c0 - b0 * c2) + n2 * (b0 * c1 - b1 * c0) := ⟨_, rfl⟩
  obtain ⟨B, hB⟩ : ∃ B, B = n0 * (c1 * a2 - c2 * a1) + n1 * (c2 * a0 - c0 * a2) + n2 * (c0 * a1 - c1 * a0) := ⟨_, rfl⟩
  obtain ⟨C, hC⟩ : ∃ C, C = n0 * (a1 * b2 - a2 * b1) + n1 * (a2 * b0 - a0 * b2) + n2 * (a0 * b1 - a1 * b0) := ⟨_, rfl⟩
  have i0 : A * a0 + B * b0 + C * c0 = 0 := by rw [hA, hB, hC]; linear_combination n0 * hdet
  have i1 : A * a1 + B * b1 + C * c1 = 0 := by rw [hA, hB, hC]; linear_combination n1 * hdet
  have i2 : A * a2 + B * b2 + C * c2 = 0 := by rw [hA, hB, hC]; linear_combination n2 * hdet
  have j1 : B * (p0 * b0 + p1 * b1 + p2 * b2) + C * (p0 * c0 + p1 * c1 + p2 * c2) = 0 := by linear_combination p0 * i0 + p1 * i1 + p2 * i2 - A * u1
  have j2 : A * (q0 * a0 + q1 * a1 + q2 * a2) + C * (q0 * c0 + q1 * c1 + q2 * c2) = 0 := by linear_combination q0 * i0 + q1 * i1 + q2 * i2 - B * w2
  have j3 : A * (r0 * a0 + r1 * a1 + r2 * a2) + B * (r0 * b0 + r1 * b1 + r2 * b2) = 0 := by linear_combination r0 * i0 + r1 * i1 + r2 * i2 - C * x3
  obtain ⟨P1, P2, P3⟩ := opposite_signs w1 x1 j1
  obtain ⟨Q1, Q2, Q3⟩ := opposite_signs u2 x2 j2
  obtain ⟨R1, R2, R3⟩ := opposite_signs u3 w3 j3
  have hA0 : A = 0 := by
    rcases lt_trichotomy A 0 with k | k | k
    · have := P1 (R2 k); have := Q2 k; linarith
    · exact k
    · have := P2 (R1 k); have := Q1 k; linarith
  have hC0 := Q3 hA0
  rw [hC0] at hC
  -- two of the edges are along one line
  have x0 : a1 * b2 - a2 * b1 = 0 := by
    apply mul_right_cancel₀ hn.ne'
    linear_combination -n0 * hC + (n2 * a1 - n1 * a2) * yw - (n2 * b1 - n1 * b2) * yu
  have x1' : a2 * b0 - a0 * b2 = 0 := by
    apply mul_right_cancel₀ hn.ne'
    linear_combination -n1 * hC + (n0 * a2 - n2 * a0) * yw - (n0 * b2 - n2 * b0) * yu
  have x2' : a0 * b1 - a1 * b0 = 0 := by
    apply mul_right_cancel₀ hn.ne'
    linear_combination -n2 * hC + (n1 * a0 - n0 * a1) * yw - (n1 * b0 - n0 * b1) * yu
  have y0 : a0 * (p0 * b0 + p1 * b1 + p2 * b2) = 0 := by linear_combination b0 * u1 + p1 * x2' - p2 * x1'
  have y1 : a1 * (p0 * b0 + p1 * b1 + p2 * b2) = 0 := by linear_combination b1 * u1 + p2 * x0 - p0 * x2'
  have y2 : a2 * (p0 * b0 + p1 * b1 + p2 * b2) = 0 := by linear_combination b2 * u1 + p0 * x1' - p1 * x0
  rcases ha with k | k | k
  · exact w1.ne ((mul_eq_zero.1 y0).resolve_left k)
  · exact w1.ne ((mul_eq_zero.1 y1).resolve_left k)
  · exact w1.ne ((mul_eq_zero.1 y2).resolve_left k)

/-- No three edges of one face at a corner. -/
theorem Walls.Proper.three_edges (h : W.Proper) {y e1 e2 e3 : Nat} (hy : y ∈ W.S) {v u w x : Fin 3 → ℝ} (yv : W.g y v = 0) (yu : W.g y u = 0) (yw : W.g y w = 0) (yx : W.g y x = 0) (v1 : W.g e1 v = 0) (v2 : W.g e2 v = 0)
    (v3 : W.g e3 v = 0) (u1 : W.g e1 u = 0) (w2 : W.g e2 w = 0) (x3 : W.g e3 x = 0) (w1 : W.g e1 w < 0) (x1 : W.g e1 x < 0) (u2 : W.g e2 u < 0) (x2 : W.g e2 x < 0) (u3 : W.g e3 u < 0) (w3 : W.g e3 w < 0) (huv : u ≠ v) : False := by
  have lin : ∀ e z, W.g e v = 0 → W.g e z = W.N e 0 * (z 0 - v 0) + W.N e 1 * (z 1 - v 1) + W.N e 2 * (z 2 - v 2) := fun e z he => by
    have : W.g e z - W.g e v = W.N e 0 * (z 0 - v 0) + W.N e 1 * (z 1 - v 1) + W.N e 2 * (z 2 - v 2) := by unfold Walls.g; ring
    rw [he, sub_zero] at this
    exact this
  have hp := h.inside y hy
  rw [lin y _ yv] at yu yw yx hp
  rw [lin e1 _ v1] at u1 w1 x1
  rw [lin e2 _ v2] at u2 w2 x2
  rw [lin e3 _ v3] at u3 w3 x3
  have hn : 0 < W.N y 0 ^ 2 + W.N y 1 ^ 2 + W.N y 2 ^ 2 := by
    apply squares_pos
    by_contra hno
    push Not at hno
    rw [hno.1, hno.2.1, hno.2.2] at hp
    simp at hp
  have ha : u 0 - v 0 ≠ 0 ∨ u 1 - v 1 ≠ 0 ∨ u 2 - v 2 ≠ 0 := by
    by_contra hno
    push Not at hno
    apply huv
    ext k
    fin_cases k
    · exact sub_eq_zero.1 hno.1
    · exact sub_eq_zero.1 hno.2.1
    · exact sub_eq_zero.1 hno.2.2
  exact no_three_edges hn ha yu yw yx u1 w2 x3 w1 x1 u2 x2 u3 w3

/-! ## Faces -/

/-- A face: its wall and its vertices. -/
structure Fan where
  y : Nat
  vs : List (Fin 3 → ℝ)

/-- The vertices span the face and follow each other along its edges. -/
structure Walls.FanOK (W : Walls) (F : Fan) : Prop where
  wall : F.y ∈ W.S
  three : 3 ≤ F.vs.length
  nodup : F.vs.Nodup
  corner : ∀ v ∈ F.vs, W.Corner v ∧ W.g F.y v = 0
  hull : ∀ z ∈ W.P, W.g F.y z = 0 → z ∈ convexHull ℝ {v | v ∈ F.vs}
  edge : ∀ t v v', F.vs[t]? = some v → F.vs[(t + 1) % F.vs.length]? = some v' → ∃ e ∈ W.S, e ≠ F.y ∧ W.g e v = 0 ∧ W.g e v' = 0

/-- A point of a hull on a wall is in the hull of the points on the wall. -/
theorem Walls.hull_on (W : Walls) (y : Nat) {S : Set (Fin 3 → ℝ)} (hle : ∀ v ∈ S, W.g y v ≤ 0) {z : Fin 3 → ℝ} (hz : z ∈ convexHull ℝ S) (h0 : W.g y z = 0) : z ∈ convexHull ℝ {v | v ∈ S ∧ W.g y v = 0} := by
  have hcomb : ∀ (a b : ℝ) (u v : Fin 3 → ℝ), a + b = 1 → W.g y (a • u + b • v) = a * W.g y u + b * W.g y v := by
    intro a b u v hab
    unfold Walls.g
    simp only [Pi.add_apply, Pi.smul_apply, smul_eq_mul]
    linear_combination (-W.c y) * hab
  have key : ∀ z ∈ convexHull ℝ S, W.g y z ≤ 0 ∧ (W.g y z = 0 → z ∈ convexHull ℝ {v | v ∈ S ∧ W.g y v = 0}) := by
    have : convexHull ℝ S ⊆ {z | W.g y z ≤ 0 ∧ (W.g y z = 0 → z ∈ convexHull ℝ {v | v ∈ S ∧ W.g y v = 0})} := by
      refine convexHull_min (fun v hv => ⟨hle v hv, fun h => subset_convexHull ℝ _ ⟨hv, h⟩⟩) ?_
      rw [convex_iff_forall_pos]
      rintro u ⟨hu, hu'⟩ v ⟨hv, hv'⟩ a b ha hb hab
      rw [Set.mem_ofPred_eq, hcomb a b u v hab]
      refine ⟨by nlinarith, fun h => ?_⟩
      have eu : W.g y u = 0 := by nlinarith
      have ev : W.g y v = 0 := by nlinarith
      exact convex_convexHull ℝ _ (hu' eu) (hv' ev) ha.le hb.le hab
    exact this
  exact (key z hz).2 h0

variable {F : Fan}

theorem Walls.FanOK.diff (h : W.FanOK F) {a b : Nat} {v : Fin 3 → ℝ} (ha : F.vs[a]? = some v) (hb : F.vs[b]? = some v) : a = b := by
  obtain ⟨h1, e1⟩ := List.getElem?_eq_some_iff.1 ha
  obtain ⟨h2, e2⟩ := List.getElem?_eq_some_iff.1 hb
  exact (List.Nodup.getElem_inj_iff h.nodup).1 (e1.trans e2.symm)

/-- Two vertices of the face on another wall follow each other. -/
theorem Walls.FanOK.next (hW : W.Proper) (h : W.FanOK F) {e : Nat} (he : e ∈ W.S) (hey : e ≠ F.y) {t : Nat} {v x : Fin 3 → ℝ} (hv : F.vs[t]? = some v) (hx : x ∈ F.vs) (hvx : v ≠ x) (hev : W.g e v = 0) (hex : W.g e x = 0) :
    ∃ s, (F.vs[s]? = some v ∧ F.vs[(s + 1) % F.vs.length]? = some x) ∨ (F.vs[s]? = some x ∧ F.vs[(s + 1) % F.vs.length]? = some v) := by
  have hlt : t < F.vs.length := (List.getElem?_eq_some_iff.1 hv).1
  have h3 := h.three
  set r := if t = 0 then F.vs.length - 1 else t - 1 with hr
  have hrlt : r < F.vs.length := by rw [hr]; split_ifs <;> omega
  have hrt : (r + 1) % F.vs.length = t := by
    rw [hr]
    split_ifs with h0
    · rw [Nat.sub_add_cancel (by omega), Nat.mod_self, h0]
    · rw [Nat.sub_add_cancel (by omega), Nat.mod_eq_of_lt hlt]
  have hslt : (t + 1) % F.vs.length < F.vs.length := Nat.mod_lt _ (by omega)
  have eu : F.vs[r]? = some F.vs[r] := List.getElem?_eq_getElem hrlt
  have ew : F.vs[(t + 1) % F.vs.length]? = some F.vs[(t + 1) % F.vs.length] := List.getElem?_eq_getElem hslt
  by_cases k1 : x = F.vs[r]
  · exact ⟨r, Or.inr ⟨k1 ▸ eu, by rw [hrt]; exact hv⟩⟩
  by_cases k2 : x = F.vs[(t + 1) % F.vs.length]
  · exact ⟨t, Or.inl ⟨hv, k2 ▸ ew⟩⟩
  exfalso
  have huv : F.vs[r] ≠ v := fun k => by
    have := h.diff eu (k ▸ hv)
    rw [hr] at this
    split_ifs at this <;> omega
  have huw : F.vs[r] ≠ F.vs[(t + 1) % F.vs.length] := fun k => by
    have := h.diff eu (by rw [k]; exact ew)
    rw [hr] at this
    split_ifs at this with h0
    · rw [h0, Nat.zero_add, Nat.mod_eq_of_lt (by omega)] at this
      omega
    · by_cases hl : t + 1 = F.vs.length
      · rw [hl, Nat.mod_self] at this
        omega
      · rw [Nat.mod_eq_of_lt (by omega)] at this
        omega
  have hvw : v ≠ F.vs[(t + 1) % F.vs.length] := fun k => by
    have := h.diff hv (by rw [k]; exact ew)
    by_cases hl : t + 1 = F.vs.length
    · rw [hl, Nat.mod_self] at this
      omega
    · rw [Nat.mod_eq_of_lt (by omega)] at this
      omega
  obtain ⟨e1, he1, hn1, g1, g1'⟩ := h.edge r _ v eu (by rw [hrt]; exact hv)
  obtain ⟨e2, he2, hn2, g2, g2'⟩ := h.edge t v _ hv ew
  obtain ⟨cv, yv⟩ := h.corner v (List.mem_of_getElem? hv)
  obtain ⟨cu, yu⟩ := h.corner _ (List.mem_of_getElem? eu)
  obtain ⟨cw, yw⟩ := h.corner _ (List.mem_of_getElem? ew)
  obtain ⟨cx, yx⟩ := h.corner x hx
  have off : ∀ {d : Nat} {z1 z2 z3 : Fin 3 → ℝ}, d ∈ W.S → d ≠ F.y → W.Corner z1 → W.Corner z2 → W.Corner z3 → W.g F.y z1 = 0 → W.g F.y z2 = 0 → W.g F.y z3 = 0 → z1 ≠ z2 → z1 ≠ z3 → z2 ≠ z3 → W.g d z1 = 0 → W.g d z2 = 0 → W.g d z3 < 0 :=
    fun {d z1 z2 z3} hd hdy c1 c2 c3 y1 y2 y3 n12 n13 n23 q1 q2 => lt_of_le_of_ne (c3.1 d hd) fun q3 => by
      rcases hW.two h.wall hd hdy.symm c1 c2 c3 y1 y2 y3 q1 q2 q3 with k | k | k
      · exact n12 k
      · exact n13 k
      · exact n23 k
  exact hW.three_edges h.wall yv yu yw yx g1' g2 hev g1 g2' hex (off he1 hn1 cv cu cw yv yu yw huv.symm hvw huw g1' g1) (off he1 hn1 cv cu cx yv yu yx huv.symm hvx (Ne.symm k1) g1' g1)
    (off he2 hn2 cv cw cu yv yw yu hvw huv.symm huw.symm g2 g2') (off he2 hn2 cv cw cx yv yw yx hvw hvx (Ne.symm k2) g2 g2') (off he hey cv cx cu yv yx yu hvx huv.symm k1 hev hex)
    (off he hey cv cx cw yv yx yw hvx hvw k2 hev hex) huv

/-- A point of the face on another wall is a vertex or on an edge. -/
theorem Walls.FanOK.on_edge (hW : W.Proper) (h : W.FanOK F) {e : Nat} (he : e ∈ W.S) (hey : e ≠ F.y) {z : Fin 3 → ℝ} (hz : z ∈ W.P) (hzy : W.g F.y z = 0) (hze : W.g e z = 0) :
    z ∈ F.vs ∨ ∃ s u u', F.vs[s]? = some u ∧ F.vs[(s + 1) % F.vs.length]? = some u' ∧ W.g e u = 0 ∧ W.g e u' = 0 ∧ ∃ a b : ℝ, 0 ≤ a ∧ 0 ≤ b ∧ a + b = 1 ∧ ∀ k, z k = a * u k + b * u' k := by
  have hz' := W.hull_on e (S := {v | v ∈ F.vs}) (fun v hv => (h.corner v hv).1.1 e he) (h.hull z hz hzy) hze
  obtain ⟨v, hv, hve⟩ : ({v | v ∈ {v | v ∈ F.vs} ∧ W.g e v = 0} : Set (Fin 3 → ℝ)).Nonempty := by
    rw [← convexHull_nonempty_iff (𝕜 := ℝ)]
    exact ⟨z, hz'⟩
  by_cases hone : ∀ x, x ∈ F.vs → W.g e x = 0 → x = v
  · left
    have hsub : ({v | v ∈ {v | v ∈ F.vs} ∧ W.g e v = 0} : Set (Fin 3 → ℝ)) ⊆ {v} := fun x hx => hone x hx.1 hx.2
    have := convexHull_mono hsub hz'
    rw [convexHull_singleton] at this
    rw [Set.mem_singleton_iff.1 this]
    exact hv
  right
  push Not at hone
  obtain ⟨x, hx, hxe, hxv⟩ := hone
  obtain ⟨t, ht⟩ := List.mem_iff_getElem?.1 hv
  obtain ⟨s, u, u', hu, hu', gu, gu', hne⟩ : ∃ s u u', F.vs[s]? = some u ∧ F.vs[(s + 1) % F.vs.length]? = some u' ∧ W.g e u = 0 ∧ W.g e u' = 0 ∧ u ≠ u' := by
    obtain ⟨s, ⟨k1, k2⟩ | ⟨k1, k2⟩⟩ := h.next hW he hey ht hx hxv.symm hve hxe
    · exact ⟨s, v, x, k1, k2, hve, hxe, hxv.symm⟩
    · exact ⟨s, x, v, k1, k2, hxe, hve, hxv⟩
  refine ⟨s, u, u', hu, hu', gu, gu', ?_⟩
  obtain ⟨cu, yu⟩ := h.corner u (List.mem_of_getElem? hu)
  obtain ⟨cu', yu'⟩ := h.corner u' (List.mem_of_getElem? hu')
  have hsub : ({v | v ∈ {v | v ∈ F.vs} ∧ W.g e v = 0} : Set (Fin 3 → ℝ)) ⊆ {u, u'} := by
    rintro w ⟨hw, hwe⟩
    obtain ⟨cw, yw⟩ := h.corner w hw
    rcases hW.two h.wall he hey.symm cu cu' cw yu yu' yw gu gu' hwe with k | k | k
    · exact absurd k hne
    · exact Or.inl k.symm
    · exact Or.inr k.symm
  have := convexHull_mono hsub hz'
  rw [convexHull_pair] at this
  obtain ⟨a, b, ha, hb, hab, e⟩ := this
  exact ⟨a, b, ha, hb, hab, fun k => by rw [← e]; simp⟩

/-- The triangle of the fan. -/
theorem Walls.FanOK.triangle (hW : W.Proper) (h : W.FanOK F) {z : Fin 3 → ℝ} (hz : z ∈ W.P) (hzy : W.g F.y z = 0) :
    ∃ t o u u', 1 ≤ t ∧ F.vs[0]? = some o ∧ F.vs[t]? = some u ∧ F.vs[t + 1]? = some u' ∧ ∃ a b : ℝ, 0 ≤ a ∧ 0 ≤ b ∧ a + b ≤ 1 ∧ ∀ k, z k = o k + a * (u k - o k) + b * (u' k - o k) := by
  have h3 := h.three
  have eo : F.vs[0]? = some F.vs[0] := List.getElem?_eq_getElem (by omega)
  obtain ⟨co, yo⟩ := h.corner _ (List.mem_of_getElem? eo)
  by_cases hne : F.vs[0] = z
  · exact ⟨1, F.vs[0], F.vs[1], F.vs[2], le_refl _, eo, List.getElem?_eq_getElem (by omega), List.getElem?_eq_getElem (by omega), 0, 0, le_refl _, le_refl _, by norm_num, fun k => by rw [hne]; ring⟩
  · obtain ⟨e, he, w, hw, s, hs, hs1, hew, heo, hl⟩ := hW.exit co.1 hz hne
    have hey : e ≠ F.y := by
      rintro rfl
      linarith
    have hwy : W.g F.y w = 0 := by
      have := W.g_line F.y hl
      rw [hzy, yo, zero_add, sub_zero] at this
      exact (mul_eq_zero.1 this.symm).resolve_left hs.ne'
    obtain hv | ⟨t, u, u', hu, hu', gu, gu', a, b, ha, hb, hab, hw'⟩ := h.on_edge hW he hey hw hwy hew
    · obtain ⟨t, ht⟩ := List.mem_iff_getElem?.1 hv
      have hlt : t < F.vs.length := (List.getElem?_eq_some_iff.1 ht).1
      have ht0 : t ≠ 0 := by
        rintro rfl
        rw [eo] at ht
        obtain rfl := Option.some.inj ht
        linarith
      by_cases hl' : t + 1 < F.vs.length
      · exact ⟨t, F.vs[0], w, F.vs[t + 1], by omega, eo, ht, List.getElem?_eq_getElem hl', s, 0, hs.le, le_refl _, by linarith, fun k => by rw [hl k]; ring⟩
      · refine ⟨t - 1, F.vs[0], F.vs[t - 1], w, by omega, eo, List.getElem?_eq_getElem (by omega), ?_, 0, s, le_refl _, hs.le, by linarith, fun k => by rw [hl k]; ring⟩
        rw [Nat.sub_add_cancel (by omega)]
        exact ht
    have hlt : t < F.vs.length := (List.getElem?_eq_some_iff.1 hu).1
    have ht0 : t ≠ 0 := by
      rintro rfl
      rw [eo] at hu
      obtain rfl := Option.some.inj hu
      linarith
    have ht1 : t + 1 ≠ F.vs.length := by
      intro hl'
      rw [hl', Nat.mod_self, eo] at hu'
      obtain rfl := Option.some.inj hu'
      linarith
    rw [Nat.mod_eq_of_lt (by omega)] at hu'
    refine ⟨t, F.vs[0], u, u', by omega, eo, hu, hu', s * a, s * b, by positivity, by positivity, by nlinarith, fun k => ?_⟩
    rw [hl k, hw' k]
    linear_combination (s * F.vs[0] k) * hab

/-! ## The tetrahedra -/

/-- The zeros of an affine function that is not zero everywhere have no volume. -/
theorem affine_null {ψ : (Fin 3 → ℝ) → ℝ} (n : Fin 3 → ℝ) (c : ℝ) (hψ : ∀ z, ψ z = n 0 * z 0 + n 1 * z 1 + n 2 * z 2 + c) {z0 : Fin 3 → ℝ} (h0 : ψ z0 ≠ 0) : volume {z | ψ z = 0} = 0 := by
  by_cases hn : n = 0
  · have : {z | ψ z = 0} = ∅ := by
      ext z
      simp only [Set.mem_ofPred_eq, Set.mem_empty_iff_false, iff_false]
      intro hz
      apply h0
      rw [hψ] at hz ⊢
      rw [hn] at hz ⊢
      simpa using hz
    rw [this, measure_empty]
  · refine measure_mono_null (fun z hz => ?_) (hyperplane_null n (-c) hn)
    rw [Set.mem_ofPred_eq, hψ] at hz
    rw [Set.mem_ofPred_eq]
    linarith

/-- A tetrahedron of the fan. -/
def Fan.tet (F : Fan) (p : Fin 3 → ℝ) (t : Nat) : Set (Fin 3 → ℝ) := tetra p (F.vs.getD 0 0) (F.vs.getD t 0) (F.vs.getD (t + 1) 0)

/-- The places of the triangles of a fan. -/
def Fan.places (F : Fan) : Finset Nat := Finset.Ico 1 (F.vs.length - 1)

/-- The pyramid over a face. -/
def Walls.pyramid (W : Walls) (y : Nat) : Set (Fin 3 → ℝ) := {z | ∃ f ∈ W.P, W.g y f = 0 ∧ ∃ s : ℝ, 0 ≤ s ∧ s ≤ 1 ∧ ∀ k, z k = W.p k + s * (f k - W.p k)}

theorem Walls.FanOK.pyramid_eq (hW : W.Proper) (h : W.FanOK F) : W.pyramid F.y = ⋃ t ∈ F.places, F.tet W.p t := by
  have h3 := h.three
  ext z
  simp only [Set.mem_iUnion, exists_prop]
  constructor
  · rintro ⟨f, hf, hfy, s, hs, hs1, hz⟩
    obtain ⟨t, o, u, u', ht, ho, hu, hu', a, b, ha, hb, hab, hl⟩ := h.triangle hW hf hfy
    have hlt : t + 1 < F.vs.length := (List.getElem?_eq_some_iff.1 hu').1
    refine ⟨t, Finset.mem_Ico.2 ⟨ht, by omega⟩, s * (1 - a - b), s * a, s * b, mul_nonneg hs (by linarith), by positivity, by positivity, by nlinarith, fun k => ?_⟩
    rw [List.getD_eq_getElem?_getD, ho, List.getD_eq_getElem?_getD, hu, List.getD_eq_getElem?_getD, hu', hz k, hl k]
    simp only [Option.getD_some]
    ring
  · rintro ⟨t, ht, x, y, w, hx, hy, hw, hsum, hz⟩
    have ht := Finset.mem_Ico.1 ht
    have e0 : F.vs[0]? = some F.vs[0] := List.getElem?_eq_getElem (by omega)
    have e1 : F.vs[t]? = some F.vs[t] := List.getElem?_eq_getElem (by omega)
    have e2 : F.vs[t + 1]? = some F.vs[t + 1] := List.getElem?_eq_getElem (by omega)
    rw [List.getD_eq_getElem?_getD, e0, List.getD_eq_getElem?_getD, e1, List.getD_eq_getElem?_getD, e2] at hz
    simp only [Option.getD_some] at hz
    obtain ⟨c0, y0⟩ := h.corner _ (List.mem_of_getElem? e0)
    obtain ⟨c1, y1⟩ := h.corner _ (List.mem_of_getElem? e1)
    obtain ⟨c2, y2⟩ := h.corner _ (List.mem_of_getElem? e2)
    by_cases hs : x + y + w = 0
    · refine ⟨_, c0.1, y0, 0, le_refl _, zero_le_one, fun k => ?_⟩
      have hx0 : x = 0 := by linarith
      have hy0 : y = 0 := by linarith
      have hw0 : w = 0 := by linarith
      rw [hz k, hx0, hy0, hw0]
      ring
    · have hpos : 0 < x + y + w := lt_of_le_of_ne (by positivity) (Ne.symm hs)
      have hg : ∀ e, W.g e (fun k => (x * F.vs[0] k + y * F.vs[t] k + w * F.vs[t + 1] k) / (x + y + w)) = (x * W.g e F.vs[0] + y * W.g e F.vs[t] + w * W.g e F.vs[t + 1]) / (x + y + w) := by
        intro e
        unfold Walls.g
        field_simp
        ring
      refine ⟨fun k => (x * F.vs[0] k + y * F.vs[t] k + w * F.vs[t + 1] k) / (x + y + w), fun e he => ?_, ?_, x + y + w, hpos.le, hsum, fun k => ?_⟩
      · rw [hg]
        refine div_nonpos_of_nonpos_of_nonneg ?_ hpos.le
        have g0 := c0.1 e he
        have g1 := c1.1 e he
        have g2 := c2.1 e he
        nlinarith [mul_nonneg hx (neg_nonneg.2 g0), mul_nonneg hy (neg_nonneg.2 g1), mul_nonneg hw (neg_nonneg.2 g2)]
      · rw [hg, y0, y1, y2]
        simp
      · rw [hz k]
        field_simp
        ring

/-- In the pyramid over a face the wall of the face comes first. -/
theorem Walls.Proper.pyramid_first (h : W.Proper) {y : Nat} (hy : y ∈ W.S) {y' : Nat} (hy' : y' ∈ W.S) {z : Fin 3 → ℝ} (hz : z ∈ W.pyramid y) : W.g y z * W.g y' W.p ≤ W.g y' z * W.g y W.p := by
  obtain ⟨f, hf, hfy, s, hs, -, hl⟩ := hz
  rw [W.g_line y hl, W.g_line y' hl, hfy]
  have h1 := hf y' hy'
  have h2 := h.inside y hy
  have h3 := h.inside y' hy'
  nlinarith [mul_nonneg (mul_nonneg hs (neg_nonneg.2 h1)) (neg_nonneg.2 h2.le)]

/-- The pyramids over two faces have no common volume. -/
theorem Walls.Proper.pyramids (h : W.Proper) {y y' : Nat} (hy : y ∈ W.S) (hy' : y' ∈ W.S) (hne : y ≠ y') : volume (W.pyramid y ∩ W.pyramid y') = 0 := by
  obtain ⟨z0, hz0⟩ := h.differ y hy y' hy' hne
  refine measure_mono_null (t := {z | W.g y z * W.g y' W.p - W.g y' z * W.g y W.p = 0}) (fun z hz => ?_)
    (affine_null (fun k => W.N y k * W.g y' W.p - W.N y' k * W.g y W.p) (W.c y * W.g y' W.p - W.c y' * W.g y W.p) (fun z => ?_) (z0 := z0) (sub_ne_zero.2 hz0))
  · have h1 := h.pyramid_first hy hy' hz.1
    have h2 := h.pyramid_first hy' hy hz.2
    rw [Set.mem_ofPred_eq]
    linarith
  · simp only [Walls.g]
    ring

/-- Two tetrahedra over one face have no common volume. -/
theorem Walls.FanOK.overlap (hW : W.Proper) (h : W.FanOK F) {t t' : Nat} (ht : t ∈ F.places) (ht' : t' ∈ F.places) (hne : t ≠ t') : volume (F.tet W.p t ∩ F.tet W.p t') = 0 := by
  have h3 := h.three
  have ht := Finset.mem_Ico.1 ht
  have ht' := Finset.mem_Ico.1 ht'
  have e0 : F.vs[0]? = some F.vs[0] := List.getElem?_eq_getElem (by omega)
  have e1 : F.vs[t]? = some F.vs[t] := List.getElem?_eq_getElem (by omega)
  have e2 : F.vs[t + 1]? = some F.vs[t + 1] := List.getElem?_eq_getElem (by omega)
  have e1' : F.vs[t']? = some F.vs[t'] := List.getElem?_eq_getElem (by omega)
  have e2' : F.vs[t' + 1]? = some F.vs[t' + 1] := List.getElem?_eq_getElem (by omega)
  obtain ⟨c0, y0⟩ := h.corner _ (List.mem_of_getElem? e0)
  obtain ⟨c1, y1⟩ := h.corner _ (List.mem_of_getElem? e1)
  obtain ⟨c2, y2⟩ := h.corner _ (List.mem_of_getElem? e2)
  obtain ⟨c1', y1'⟩ := h.corner _ (List.mem_of_getElem? e1')
  obtain ⟨c2', y2'⟩ := h.corner _ (List.mem_of_getElem? e2')
  obtain ⟨e, he, hey, g1, g2⟩ := h.edge t _ _ e1 (by rw [Nat.mod_eq_of_lt (by omega)]; exact e2)
  obtain ⟨e', he', hey', g1', g2'⟩ := h.edge t' _ _ e1' (by rw [Nat.mod_eq_of_lt (by omega)]; exact e2')
  -- two vertices on a wall are all on it
  have only : ∀ {d a b c : Nat} {va vb vc : Fin 3 → ℝ}, d ∈ W.S → d ≠ F.y → F.vs[a]? = some va → F.vs[b]? = some vb → F.vs[c]? = some vc → a ≠ b → a ≠ c → b ≠ c → W.g d va = 0 → W.g d vb = 0 → W.g d vc = 0 → False := by
    intro d a b c va vb vc hd hdy ha hb hc hab hac hbc ga gb gc
    obtain ⟨ca, ya⟩ := h.corner _ (List.mem_of_getElem? ha)
    obtain ⟨cb, yb⟩ := h.corner _ (List.mem_of_getElem? hb)
    obtain ⟨cc, yc⟩ := h.corner _ (List.mem_of_getElem? hc)
    rcases hW.two h.wall hd hdy.symm ca cb cc ya yb yc ga gb gc with rfl | rfl | rfl
    · exact hab (h.diff ha hb)
    · exact hac (h.diff ha hc)
    · exact hbc (h.diff hb hc)
  have n0 : W.g e F.vs[0] < 0 := lt_of_le_of_ne (c0.1 e he) fun k => only he hey e0 e1 e2 (by omega) (by omega) (by omega) k g1 g2
  have n0' : W.g e' F.vs[0] < 0 := lt_of_le_of_ne (c0.1 e' he') fun k => only he' hey' e0 e1' e2' (by omega) (by omega) (by omega) k g1' g2'
  have hp := hW.inside F.y h.wall
  -- where the two walls come at once, seen from the first vertex
  set ψ : (Fin 3 → ℝ) → ℝ := fun z => (W.g e z * W.g F.y W.p - W.g F.y z * W.g e W.p) * W.g e' F.vs[0] - (W.g e' z * W.g F.y W.p - W.g F.y z * W.g e' W.p) * W.g e F.vs[0] with hψ
  have hnz : ∃ z0, ψ z0 ≠ 0 := by
    by_cases k1 : W.g e' F.vs[t] = 0
    · have k2 : W.g e' F.vs[t + 1] ≠ 0 := by
        intro k2
        by_cases htt : t' = t + 1
        · exact only he' hey' e1 e2 e2' (by omega) (by omega) (by omega) k1 k2 g2'
        · exact only he' hey' e1 e2 e1' (by omega) (by omega) (by omega) k1 k2 g1'
      refine ⟨F.vs[t + 1], ?_⟩
      rw [hψ]
      simp only [g2, y2, zero_mul, sub_zero, zero_sub, neg_ne_zero]
      exact mul_ne_zero (mul_ne_zero k2 hp.ne) n0.ne
    · refine ⟨F.vs[t], ?_⟩
      rw [hψ]
      simp only [g1, y1, zero_mul, sub_zero, zero_sub, neg_ne_zero]
      exact mul_ne_zero (mul_ne_zero k1 hp.ne) n0.ne
  obtain ⟨z0, hz0⟩ := hnz
  -- on one side in the first tetrahedron, on the other side in the second
  have side : ∀ {s : Nat} {d d' : Nat} {u u' z : Fin 3 → ℝ}, F.vs[s]? = some u → F.vs[s + 1]? = some u' → d ∈ W.S → d' ∈ W.S → W.g d u = 0 → W.g d u' = 0 → W.g d F.vs[0] < 0 → W.g d' F.vs[0] < 0 → W.g F.y u = 0 → W.g F.y u' = 0 →
      u ∈ W.P → u' ∈ W.P → z ∈ F.tet W.p s →
      (W.g d z * W.g F.y W.p - W.g F.y z * W.g d W.p) * W.g d' F.vs[0] ≥ (W.g d' z * W.g F.y W.p - W.g F.y z * W.g d' W.p) * W.g d F.vs[0] := by
    rintro s d d' u u' z hu hu' hd hd' gu gu' nd nd' yu yu' pu pu' ⟨x, y, w, hx, hy, hw, hsum, hz⟩
    rw [List.getD_eq_getElem?_getD, e0, List.getD_eq_getElem?_getD, hu, List.getD_eq_getElem?_getD, hu'] at hz
    simp only [Option.getD_some] at hz
    have hg : ∀ b, W.g b z = (1 - x - y - w) * W.g b W.p + x * W.g b F.vs[0] + y * W.g b u + w * W.g b u' := by
      intro b
      unfold Walls.g
      rw [hz 0, hz 1, hz 2]
      ring
    rw [hg d, hg d', hg F.y, y0, yu, yu', gu, gu']
    have q1 := pu d' hd'
    have q2 := pu' d' hd'
    have m1 : 0 ≤ y * W.g d' u * W.g F.y W.p := by nlinarith [mul_nonneg hy (neg_nonneg.2 q1)]
    have m2 : 0 ≤ w * W.g d' u' * W.g F.y W.p := by nlinarith [mul_nonneg hw (neg_nonneg.2 q2)]
    nlinarith [mul_nonneg m1 (neg_nonneg.2 nd.le), mul_nonneg m2 (neg_nonneg.2 nd.le)]
  refine measure_mono_null (t := {z | ψ z = 0}) (fun z hz => ?_) (affine_null
    (fun k => (W.N e k * W.g F.y W.p - W.N F.y k * W.g e W.p) * W.g e' F.vs[0] - (W.N e' k * W.g F.y W.p - W.N F.y k * W.g e' W.p) * W.g e F.vs[0])
    ((W.c e * W.g F.y W.p - W.c F.y * W.g e W.p) * W.g e' F.vs[0] - (W.c e' * W.g F.y W.p - W.c F.y * W.g e' W.p) * W.g e F.vs[0]) (fun z => ?_) hz0)
  · have s1 := side e1 e2 he he' g1 g2 n0 n0' y1 y2 c1.1 c2.1 hz.1
    have s2 := side e1' e2' he' he g1' g2' n0' n0 y1' y2' c1'.1 c2'.1 hz.2
    rw [Set.mem_ofPred_eq, hψ]
    simp only
    linarith
  · rw [hψ]
    simp only [Walls.g]
    ring

/-- **The volume of the pyramid over a face** is the sum of the volumes of the tetrahedra of its fan. -/
theorem Walls.FanOK.pyramid_volume (hW : W.Proper) (h : W.FanOK F) : volume (W.pyramid F.y) = ∑ t ∈ F.places, volume (F.tet W.p t) := by
  rw [h.pyramid_eq hW]
  exact measure_biUnion_finset₀ (fun t ht t' ht' hne => h.overlap hW ht ht' hne) fun t _ => tetra_measurable _ _ _ _

theorem Walls.FanOK.pyramid_measurable (hW : W.Proper) (h : W.FanOK F) : NullMeasurableSet (W.pyramid F.y) volume := by
  rw [h.pyramid_eq hW]
  exact Finset.nullMeasurableSet_biUnion _ fun t _ => tetra_measurable _ _ _ _

/-- The pyramids are in the polytope. -/
theorem Walls.Proper.pyramid_sub (h : W.Proper) (y : Nat) : W.pyramid y ⊆ W.P := by
  rintro z ⟨f, hf, -, s, hs, hs1, hl⟩ y' hy'
  rw [W.g_line y' hl]
  have h1 := hf y' hy'
  have h2 := h.inside y' hy'
  nlinarith [mul_nonneg hs (neg_nonneg.2 h1), mul_nonneg (sub_nonneg.2 hs1) (neg_nonneg.2 h2.le)]

open Classical in
/-- **The volume of the polytope** is the sum of the volumes of the pyramids over its faces; faces without volume over them may be left out. -/
theorem Walls.Proper.volume_eq (h : W.Proper) (K : Finset Nat) (G : Nat → Fan) (hG : ∀ k ∈ K, W.FanOK (G k)) (hinj : ∀ k ∈ K, ∀ k' ∈ K, (G k).y = (G k').y → k = k')
    (hall : ∀ y ∈ W.S, (∃ k ∈ K, (G k).y = y) ∨ volume (W.pyramid y) = 0) : volume W.P = ∑ k ∈ K, volume (W.pyramid (G k).y) := by
  have hU : volume (⋃ k ∈ K, W.pyramid (G k).y) = ∑ k ∈ K, volume (W.pyramid (G k).y) :=
    measure_biUnion_finset₀ (fun k hk k' hk' hne => h.pyramids (hG k hk).wall (hG k' hk').wall fun e => hne (hinj k hk k' hk' e)) fun k hk => (hG k hk).pyramid_measurable h
  rw [← hU]
  refine le_antisymm ?_ (measure_mono (Set.iUnion₂_subset fun k _ => h.pyramid_sub _))
  have hp : W.P ⊆ ({W.p} ∪ ⋃ y ∈ W.S.filter (fun y => volume (W.pyramid y) = 0), W.pyramid y) ∪ ⋃ k ∈ K, W.pyramid (G k).y := by
    intro q hq
    by_cases hne : W.p = q
    · exact Or.inl (Or.inl hne.symm)
    · obtain ⟨y, hy, f, hf, s, hs, hs1, hyf, -, hl⟩ := h.exit (fun y hy => (h.inside y hy).le) hq hne
      rcases hall y hy with ⟨k, hk, e⟩ | e
      · exact Or.inr (Set.mem_iUnion₂.2 ⟨k, hk, f, hf, e ▸ hyf, s, hs.le, hs1, hl⟩)
      · exact Or.inl (Or.inr (Set.mem_iUnion₂.2 ⟨y, Finset.mem_filter.2 ⟨hy, e⟩, f, hf, hyf, s, hs.le, hs1, hl⟩))
  have h0 : volume ({W.p} ∪ ⋃ y ∈ W.S.filter (fun y => volume (W.pyramid y) = 0), W.pyramid y) = 0 := by
    rw [measure_union_null_iff]
    refine ⟨measure_singleton _, ?_⟩
    exact (measure_biUnion_null_iff (Finset.countable_toSet (W.S.filter fun y => volume (W.pyramid y) = 0))).2 fun y hy => (Finset.mem_filter.1 hy).2
  calc volume W.P ≤ volume (({W.p} ∪ ⋃ y ∈ W.S.filter (fun y => volume (W.pyramid y) = 0), W.pyramid y) ∪ ⋃ k ∈ K, W.pyramid (G k).y) := measure_mono hp
    _ ≤ volume ({W.p} ∪ ⋃ y ∈ W.S.filter (fun y => volume (W.pyramid y) = 0), W.pyramid y) + volume (⋃ k ∈ K, W.pyramid (G k).y) := measure_union_le _ _
    _ = volume (⋃ k ∈ K, W.pyramid (G k).y) := by rw [h0, zero_add]

end VoroCrust
