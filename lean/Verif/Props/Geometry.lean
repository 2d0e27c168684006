import Verif.Model.Geometry
import Mathlib.Tactic.Ring
import Mathlib.Tactic.Linarith
import Mathlib.Tactic.FieldSimp
import Mathlib.Tactic.Positivity
import Mathlib.Tactic.FinCases
import Mathlib.Tactic.LinearCombination

/-! # Projections and orthogonal components: C42, C43, C44 -/

namespace VoroCrust

/-! ## C44 -/

theorem dotDim_eq (u v : Nat → ℝ) (n : Nat) : dotDim u v n = ∑ d ∈ Finset.range n, u d * v d := by
  induction n with
  | zero => rfl
  | succ n ih => rw [dotDim, ih, Finset.sum_range_succ]

/-- Orthonormal in the first `n` coordinates. -/
def Orthonormal' (n : Nat) (basis : List (Nat → ℝ)) : Prop :=
  (∀ b ∈ basis, ∑ d ∈ Finset.range n, b d * b d = 1) ∧ basis.Pairwise fun b b' => ∑ d ∈ Finset.range n, b d * b' d = 0

theorem subComps_dot (n : Nat) (bs : List ((Nat → ℝ) × ℝ)) (v x : Nat → ℝ) :
    ∑ d ∈ Finset.range n, subComps bs v d * x d = ∑ d ∈ Finset.range n, v d * x d - (bs.map fun p => p.2 * ∑ d ∈ Finset.range n, p.1 d * x d).sum := by
  induction bs generalizing v with
  | nil => simp [subComps]
  | cons p bs ih =>
    obtain ⟨b, c⟩ := p
    rw [subComps, ih, List.map_cons, List.sum_cons]
    simp only [sub_mul, Finset.sum_sub_distrib, mul_assoc, ← Finset.mul_sum]
    ring

theorem sum_orthonormal (n : Nat) (basis : List (Nat → ℝ)) (h : Orthonormal' n basis) (f : (Nat → ℝ) → ℝ) (b : Nat → ℝ) (hb : b ∈ basis) :
    (basis.map fun b' => f b' * ∑ d ∈ Finset.range n, b' d * b d).sum = f b := by
  induction basis with
  | nil => simp at hb
  | cons a basis ih =>
    obtain ⟨h1, h2⟩ := h
    rw [List.pairwise_cons] at h2
    rw [List.map_cons, List.sum_cons]
    rcases List.mem_cons.1 hb with rfl | hb
    · rw [h1 b (by simp), List.sum_eq_zero, mul_one, add_zero]
      intro x hx
      obtain ⟨b', hb', rfl⟩ := List.mem_map.1 hx
      have := h2.1 b' hb'
      simp only [mul_comm (b' _)]
      rw [this, mul_zero]
    · rw [h2.1 b hb, mul_zero, zero_add]
      exact ih ⟨fun b' hb' => h1 b' (by simp [hb']), h2.2⟩ hb

/-- What is left of `v` is orthogonal to the basis. -/
theorem subComps_orthogonal (n : Nat) (basis : List (Nat → ℝ)) (h : Orthonormal' n basis) (v b : Nat → ℝ) (hb : b ∈ basis) :
    ∑ d ∈ Finset.range n, subComps (basis.map fun b => (b, dotDim v b n)) v d * b d = 0 := by
  rw [subComps_dot, List.map_map]
  have := sum_orthonormal n basis h (fun b => dotDim v b n) b hb
  rw [show ((fun p : (Nat → ℝ) × ℝ => p.2 * ∑ d ∈ Finset.range n, p.1 d * b d) ∘ fun b => (b, dotDim v b n)) =
    fun b' => dotDim v b' n * ∑ d ∈ Finset.range n, b' d * b d from rfl, this, dotDim_eq, sub_self]

theorem subComps_span (bs : List ((Nat → ℝ) × ℝ)) (v : Nat → ℝ) (d : Nat) :
    v d = subComps bs v d + (bs.map fun p => p.2 * p.1 d).sum := by
  induction bs generalizing v with
  | nil => simp [subComps]
  | cons p bs ih =>
    obtain ⟨b, c⟩ := p
    rw [subComps, List.map_cons, List.sum_cons]
    have := ih fun d => v d - c * b d
    simp only at this ⊢
    linarith

/-- **C44.** For every orthonormal basis: on success the result is a unit vector orthogonal to every basis vector, and the given vector
is the result times a positive length plus a combination of the basis; on failure the part orthogonal to the basis is shorter
than `1e-5`. -/
theorem C44_normal_component (n : Nat) (basis : List (Nat → ℝ)) (h : Orthonormal' n basis) (v w : Nat → ℝ) (norm : ℝ) (ok : Bool)
    (e : normalComponent n basis v = (w, norm, ok)) :
    (ok = true → ∑ d ∈ Finset.range n, w d * w d = 1 ∧ (∀ b ∈ basis, ∑ d ∈ Finset.range n, w d * b d = 0) ∧ 0 < norm ∧
      ∃ c : (Nat → ℝ) → ℝ, ∀ d, v d = 1 / norm * w d + (basis.map fun b => c b * b d).sum) ∧
    (ok = false → ∑ d ∈ Finset.range n, w d * w d < 1e-10 ∧ (∀ b ∈ basis, ∑ d ∈ Finset.range n, w d * b d = 0) ∧
      ∃ c : (Nat → ℝ) → ℝ, ∀ d, v d = w d + (basis.map fun b => c b * b d).sum) := by
  unfold normalComponent at e
  simp only at e
  have hspan := subComps_span (basis.map fun b => (b, dotDim v b n)) v
  have horth := subComps_orthogonal n basis h v
  generalize subComps (basis.map fun b => (b, dotDim v b n)) v = x at e hspan horth
  have hs : ∀ d, v d = x d + (basis.map fun b => dotDim v b n * b d).sum := fun d => by
    rw [hspan d, List.map_map]; rfl
  have hnn : 0 ≤ dotDim x x n := by
    rw [dotDim_eq]; exact Finset.sum_nonneg fun d _ => mul_self_nonneg _
  split at e
  · rename_i hlt
    simp only [Prod.mk.injEq] at e
    obtain ⟨rfl, rfl, rfl⟩ := e
    refine ⟨by simp, fun _ => ⟨?_, horth, _, hs⟩⟩
    rw [abs_of_nonneg hnn, dotDim_eq] at hlt
    exact hlt
  · rename_i hge
    simp only [Prod.mk.injEq] at e
    obtain ⟨rfl, rfl, rfl⟩ := e
    have hpos : 0 < dotDim x x n := by
      rw [abs_of_nonneg hnn, not_lt] at hge
      exact lt_of_lt_of_le (by norm_num) hge
    have hsq : 0 < Real.sqrt (dotDim x x n) := Real.sqrt_pos.2 hpos
    refine ⟨fun _ => ⟨?_, fun b hb => ?_, by positivity, fun b => dotDim v b n, fun d => ?_⟩, by simp⟩
    · have : ∀ d, x d * (1 / Real.sqrt (dotDim x x n)) * (x d * (1 / Real.sqrt (dotDim x x n))) = x d * x d * (1 / dotDim x x n) := by
        intro d
        have := Real.mul_self_sqrt hpos.le
        field_simp
        rw [sq, sq]
        nlinarith [this]
      simp only [this]
      rw [← Finset.sum_mul, ← dotDim_eq]
      field_simp
    · have : ∀ d, x d * (1 / Real.sqrt (dotDim x x n)) * b d = x d * b d * (1 / Real.sqrt (dotDim x x n)) := fun d => by ring
      simp only [this]
      rw [← Finset.sum_mul, horth b hb, zero_mul]
    · rw [hs d]
      congr 1
      field_simp

-- the component of (3, 4, 0) orthogonal to the first axis is the second axis
example : Orthonormal' 3 [fun d => if d = 0 then 1 else 0] ∧
    (normalComponent 3 [fun d => if d = 0 then 1 else 0] fun d => if d = 0 then 3 else if d = 1 then 4 else 0).2.2 = true := by
  constructor
  · refine ⟨fun b hb => ?_, by simp⟩
    rw [List.mem_singleton.1 hb]
    simp
  · unfold normalComponent
    simp [subComps, dotDim]
    norm_num

/-! ## C42 -/

theorem dist3_sq (x y : V3) : dist3 x y ^ 2 = dot3 (fun d => x d - y d) (fun d => x d - y d) := by
  unfold dist3 dot3
  rw [Real.sq_sqrt (Finset.sum_nonneg fun d _ => sq_nonneg _), Fin.sum_univ_three]
  ring

theorem dist3_nonneg (x y : V3) : 0 ≤ dist3 x y := Real.sqrt_nonneg _

theorem dist3_comm (x y : V3) : dist3 x y = dist3 y x := by
  unfold dist3; congr 1; exact Finset.sum_congr rfl fun d _ => by ring

theorem dist3_le_iff (p x y : V3) : dist3 p x ≤ dist3 p y ↔
    dot3 (fun d => p d - x d) (fun d => p d - x d) ≤ dot3 (fun d => p d - y d) (fun d => p d - y d) := by
  rw [← dist3_sq, ← dist3_sq]
  exact ⟨fun h => by nlinarith [dist3_nonneg p x], fun h => by nlinarith [dist3_nonneg p x, dist3_nonneg p y]⟩

theorem dot3_self_pos {v : V3} (h : dot3 v v ≠ 0) : 0 < dot3 v v := by
  refine lt_of_le_of_ne ?_ (Ne.symm h)
  unfold dot3; nlinarith [sq_nonneg (v 0), sq_nonneg (v 1), sq_nonneg (v 2)]

/-- The points of the segment. -/
def OnSegment (a b x : V3) : Prop := ∃ t : ℝ, 0 ≤ t ∧ t ≤ 1 ∧ ∀ d, x d = a d + t * (b d - a d)

theorem clampPoint_spec (p a b : V3) (hab : a ≠ b) :
    ∃ q, clampPoint p a b = some q ∧ OnSegment a b q ∧ ∀ x, OnSegment a b x → dist3 p q ≤ dist3 p x := by
  have hw : dot3 (fun d => b d - a d) (fun d => b d - a d) ≠ 0 := by
    intro hc
    apply hab
    unfold dot3 at hc
    simp only at hc
    have h0 : b 0 - a 0 = 0 := by nlinarith [sq_nonneg (b 0 - a 0), sq_nonneg (b 1 - a 1), sq_nonneg (b 2 - a 2)]
    have h1 : b 1 - a 1 = 0 := by nlinarith [sq_nonneg (b 0 - a 0), sq_nonneg (b 1 - a 1), sq_nonneg (b 2 - a 2)]
    have h2 : b 2 - a 2 = 0 := by nlinarith [sq_nonneg (b 0 - a 0), sq_nonneg (b 1 - a 1), sq_nonneg (b 2 - a 2)]
    funext d
    fin_cases d <;> simp <;> linarith
  have hpos := dot3_self_pos hw
  unfold clampPoint
  simp only [if_neg hw]
  set W := dot3 (fun d => b d - a d) (fun d => b d - a d) with hW
  set D := dot3 (fun d => p d - a d) (fun d => b d - a d) with hD
  obtain ⟨u, hu, hu0, hu1, hmin⟩ : ∃ u, (if (if D / W < 0 then 0 else D / W) > 1 then (1 : ℝ) else if D / W < 0 then 0 else D / W) = u ∧ 0 ≤ u ∧ u ≤ 1 ∧
      ∀ t, 0 ≤ t → t ≤ 1 → u * u * W - 2 * u * D ≤ t * t * W - 2 * t * D := by
    by_cases h1 : D / W < 0
    · rw [if_pos h1, if_neg (by norm_num)]
      refine ⟨0, rfl, le_rfl, zero_le_one, fun t ht _ => ?_⟩
      have hD0 : D < 0 := by by_contra hc; exact absurd h1 (not_lt.2 (div_nonneg (not_lt.1 hc) hpos.le))
      nlinarith [mul_nonneg ht ht, mul_nonneg (mul_nonneg ht ht) hpos.le]
    · rw [if_neg h1]
      have hDW : D / W * W = D := by field_simp
      by_cases h2 : D / W > 1
      · rw [if_pos h2]
        refine ⟨1, rfl, zero_le_one, le_rfl, fun t ht ht1 => ?_⟩
        have : W < D := by rw [gt_iff_lt, lt_div_iff₀ hpos] at h2; linarith
        nlinarith [mul_nonneg (sub_nonneg.2 ht1) (sub_nonneg.2 ht1), mul_nonneg (mul_nonneg (sub_nonneg.2 ht1) (sub_nonneg.2 ht1)) hpos.le]
      · rw [if_neg h2]
        refine ⟨D / W, rfl, not_lt.1 h1, not_lt.1 h2, fun t _ _ => ?_⟩
        have : 0 ≤ (t - D / W) * (t - D / W) * W := mul_nonneg (mul_self_nonneg _) hpos.le
        generalize D / W = u at *
        rw [← hDW]; nlinarith
  refine ⟨_, rfl, ⟨u, hu0, hu1, fun d => by rw [hu]⟩, ?_⟩
  rintro x ⟨t, ht0, ht1, hx⟩
  rw [dist3_le_iff, hu]
  have key : ∀ s : ℝ, dot3 (fun d => p d - (a d + s * (b d - a d))) (fun d => p d - (a d + s * (b d - a d))) =
      dot3 (fun d => p d - a d) (fun d => p d - a d) + (s * s * W - 2 * s * D) := by
    intro s; rw [hW, hD]; unfold dot3; ring
  have hx' : x = fun d => a d + t * (b d - a d) := funext hx
  rw [hx', key u, key t]
  linarith [hmin t ht0 ht1]

/-- **C42.** For every point and every segment with distinct ends, the projection returns a point of the segment nearest to the query,
and the distance to it. -/
theorem C42_segment_projection (p a b : V3) (hab : a ≠ b) :
    ∃ q, projSegment p a b = some (q, dist3 p q) ∧ OnSegment a b q ∧ ∀ x, OnSegment a b x → dist3 p q ≤ dist3 p x := by
  obtain ⟨q, e, h⟩ := clampPoint_spec p a b hab
  exact ⟨q, by rw [projSegment, e]; rfl, h⟩

/-- **C42, precondition.** With equal ends the code divides zero by zero. -/
theorem C42_equal_ends_undefined (p a : V3) : projSegment p a a = none := by
  simp [projSegment, clampPoint, dot3]

/-- **C42 for lines.** With a unit direction the projection is the nearest point of the line. -/
theorem C42_line_projection (p o e : V3) (he : dot3 e e = 1) :
    (projLine p o e).2 = dist3 p (projLine p o e).1 ∧ (∃ t : ℝ, ∀ d, (projLine p o e).1 d = o d + t * e d) ∧
      ∀ t : ℝ, (projLine p o e).2 ≤ dist3 p fun d => o d + t * e d := by
  refine ⟨rfl, ⟨_, fun d => rfl⟩, fun t => ?_⟩
  unfold projLine
  simp only
  rw [dist3_le_iff]
  have key : ∀ s : ℝ, dot3 (fun d => p d - (o d + s * e d)) (fun d => p d - (o d + s * e d)) =
      dot3 (fun d => p d - o d) (fun d => p d - o d) + (s * s - 2 * s * dot3 (fun d => p d - o d) e) := by
    intro s
    have : s * s = s * s * dot3 e e := by rw [he, mul_one]
    rw [this]; unfold dot3; ring
  rw [key, key]
  nlinarith [mul_self_nonneg (t - dot3 (fun d => p d - o d) e)]

example : projSegment ![0, 5, 0] ![1, 0, 0] ![3, 0, 0] = some (![1, 0, 0], 1 * dist3 ![0, 5, 0] ![1, 0, 0]) := by
  unfold projSegment clampPoint dot3
  simp
  norm_num

/-! ## C43 -/

/-- The points of the triangle. -/
def InTri (c : Fin 3 → V3) (x : V3) : Prop := ∃ l : Fin 3 → ℝ, (∀ i, 0 ≤ l i) ∧ ∑ i, l i = 1 ∧ ∀ d, x d = ∑ i, l i * c i d

/-- Twice the area vector. -/
def areaVec (c : Fin 3 → V3) : V3 := cross3 (fun d => c 1 d - c 0 d) (fun d => c 2 d - c 0 d)

noncomputable def len3 (v : V3) : ℝ := Real.sqrt (dot3 v v)

theorem dot3_self_nonneg (v : V3) : 0 ≤ dot3 v v := by
  unfold dot3; nlinarith [sq_nonneg (v 0), sq_nonneg (v 1), sq_nonneg (v 2)]

theorem dot3_smul (k : ℝ) (u v : V3) : dot3 (fun d => k * u d) v = k * dot3 u v := by unfold dot3; ring

theorem dot3_smul_smul (k : ℝ) (u : V3) : dot3 (fun d => k * u d) (fun d => k * u d) = k ^ 2 * dot3 u u := by unfold dot3; ring

theorem normalize3_spec (v : V3) : ((normalize3 v).2 = true ∧ 1e-10 ≤ len3 v ∧ (normalize3 v).1 = fun d => (1 / len3 v) * v d) ∨
    ((normalize3 v).2 = false ∧ len3 v < 1e-10) := by
  unfold normalize3 len3
  split
  · rename_i h; right; exact ⟨rfl, h⟩
  · rename_i h
    left; refine ⟨rfl, not_lt.1 h, ?_⟩
    funext d; simp only; rw [one_div, div_eq_inv_mul]

theorem cross3_smul (k l : ℝ) (u v : V3) : cross3 (fun d => k * u d) (fun d => l * v d) = fun d => k * l * cross3 u v d := by
  funext d
  fin_cases d <;> simp [cross3] <;> ring

theorem triNormal_spec (c : Fin 3 → V3) :
    ((triNormal c).2 = true ∧ dot3 (triNormal c).1 (triNormal c).1 = 1 ∧ 0 < dot3 (areaVec c) (areaVec c) ∧
      ∃ k, 0 < k ∧ ∀ d, (triNormal c).1 d = k * areaVec c d) ∨
    ((triNormal c).2 = false ∧ (len3 (fun d => c 1 d - c 0 d) < 1e-10 ∨ len3 (fun d => c 2 d - c 0 d) < 1e-10 ∨
      len3 (areaVec c) < 1e-10 * (len3 (fun d => c 1 d - c 0 d) * len3 (fun d => c 2 d - c 0 d)))) := by
  have hA := normalize3_spec fun d => c 1 d - c 0 d
  have hB := normalize3_spec fun d => c 2 d - c 0 d
  unfold triNormal
  simp only
  rcases hA with ⟨a1, a2, a3⟩ | ⟨a1, a2⟩
  · rcases hB with ⟨b1, b2, b3⟩ | ⟨b1, b2⟩
    · rw [a1, b1, a3, b3]
      simp only [Bool.not_true, Bool.or_self, Bool.false_eq_true, if_false]
      rw [cross3_smul]
      set la := len3 fun d => c 1 d - c 0 d
      set lb := len3 fun d => c 2 d - c 0 d
      have hla : 0 < la := lt_of_lt_of_le (by norm_num) a2
      have hlb : 0 < lb := lt_of_lt_of_le (by norm_num) b2
      have hk : 0 < 1 / la * (1 / lb) := by positivity
      change _ ∨ _ ∧ (_ ∨ _ ∨ len3 (areaVec c) < _)
      have hN : (fun d => 1 / la * (1 / lb) * cross3 (fun d => c 1 d - c 0 d) (fun d => c 2 d - c 0 d) d) = fun d => 1 / la * (1 / lb) * areaVec c d := rfl
      rw [hN, dot3_smul_smul, Real.sqrt_mul' _ (dot3_self_nonneg _), Real.sqrt_sq hk.le]
      rw [show Real.sqrt (dot3 (areaVec c) (areaVec c)) = len3 (areaVec c) from rfl]
      by_cases hlt : |1 / la * (1 / lb) * len3 (areaVec c)| < 1e-10
      · rw [if_pos hlt]
        right
        refine ⟨rfl, Or.inr (Or.inr ?_)⟩
        have h0 : 0 ≤ len3 (areaVec c) := Real.sqrt_nonneg _
        rw [abs_of_nonneg (by positivity)] at hlt
        have := mul_lt_mul_of_pos_right hlt (mul_pos hla hlb)
        have e : 1 / la * (1 / lb) * len3 (areaVec c) * (la * lb) = len3 (areaVec c) := by field_simp
        rw [e] at this
        exact this
      · have hge := hlt
        rw [if_neg hlt]
        left
        have h0 : 0 < len3 (areaVec c) := by
          rcases lt_or_eq_of_le (Real.sqrt_nonneg (dot3 (areaVec c) (areaVec c))) with h | h
          · exact h
          · exfalso; apply hge
            have : len3 (areaVec c) = 0 := h.symm
            rw [this]; norm_num
        have hNN : 0 < dot3 (areaVec c) (areaVec c) := Real.sqrt_pos.1 h0
        have hform : ∀ d, 1 / la * (1 / lb) * areaVec c d / (1 / la * (1 / lb) * len3 (areaVec c)) = 1 / len3 (areaVec c) * areaVec c d := by
          intro d; field_simp
        refine ⟨rfl, ?_, hNN, 1 / len3 (areaVec c), by positivity, hform⟩
        show dot3 (fun d => 1 / la * (1 / lb) * areaVec c d / (1 / la * (1 / lb) * len3 (areaVec c))) (fun d => 1 / la * (1 / lb) * areaVec c d / (1 / la * (1 / lb) * len3 (areaVec c))) = 1
        rw [funext hform, dot3_smul_smul]
        have : len3 (areaVec c) ^ 2 = dot3 (areaVec c) (areaVec c) := Real.sq_sqrt hNN.le
        rw [← this]; field_simp
    · right; rw [a1, b1]; exact ⟨rfl, Or.inr (Or.inl b2)⟩
  · right; rw [a1]; exact ⟨rfl, Or.inl a2⟩

/-- Coordinates of a point of the plane. -/
theorem plane_coordinates (c : Fin 3 → V3) (hN : 0 < dot3 (areaVec c) (areaVec c)) (q : V3) (hq : dot3 (fun d => q d - c 0 d) (areaVec c) = 0) :
    ∃ l : Fin 3 → ℝ, ∑ i, l i = 1 ∧ ∀ d, q d = ∑ i, l i * c i d := by
  set NN := dot3 (areaVec c) (areaVec c) with hNN
  set s := dot3 (cross3 (fun d => q d - c 0 d) (fun d => c 2 d - c 0 d)) (areaVec c) with hs
  set t := dot3 (cross3 (fun d => c 1 d - c 0 d) (fun d => q d - c 0 d)) (areaVec c) with ht
  refine ⟨![1 - s / NN - t / NN, s / NN, t / NN], by simp only [Fin.sum_univ_three, Matrix.cons_val_zero, Matrix.cons_val_one, Matrix.cons_val_two, Matrix.head_cons, Matrix.tail_cons]; ring, fun d => ?_⟩
  have key : NN * (q d - c 0 d) = dot3 (fun d => q d - c 0 d) (areaVec c) * areaVec c d + s * (c 1 d - c 0 d) + t * (c 2 d - c 0 d) := by
    rw [hNN, hs, ht]
    unfold areaVec cross3 dot3
    fin_cases d <;> simp <;> ring
  rw [hq, zero_mul, zero_add] at key
  simp only [Fin.sum_univ_three, Matrix.cons_val_zero, Matrix.cons_val_one, Matrix.cons_val_two, Matrix.head_cons, Matrix.tail_cons]
  field_simp
  linarith

/-- Replacing a corner by a point of the plane scales the area vector by its coordinate. -/
theorem areaVec_update (c : Fin 3 → V3) (q : V3) (l : Fin 3 → ℝ) (h1 : ∑ i, l i = 1) (hq : ∀ d, q d = ∑ i, l i * c i d) (i : Fin 3) (d : Fin 3) :
    areaVec (Function.update c i q) d = l i * areaVec c d := by
  have h0 : l 0 = 1 - l 1 - l 2 := by rw [Fin.sum_univ_three] at h1; linarith
  have hq' : ∀ d, q d = c 0 d + l 1 * (c 1 d - c 0 d) + l 2 * (c 2 d - c 0 d) := by
    intro d; rw [hq d, Fin.sum_univ_three, h0]; ring
  unfold areaVec cross3
  fin_cases i <;> fin_cases d <;> simp [Function.update, hq', h0] <;> ring

/-- The sign test of the loop, where it is made. -/
theorem side_test (c : Fin 3 → V3) (hok : (triNormal c).2 = true) (q : V3) (l : Fin 3 → ℝ) (h1 : ∑ i, l i = 1) (hq : ∀ d, q d = ∑ i, l i * c i d)
    (i : Fin 3) (hi : (triNormal (Function.update c i q)).2 = true) :
    (dot3 (triNormal (Function.update c i q)).1 (triNormal c).1 < -1e-10 → l i < 0) ∧
      (¬ dot3 (triNormal (Function.update c i q)).1 (triNormal c).1 < -1e-10 → 0 < l i) := by
  obtain ⟨-, n1, NN, k, hk, hn⟩ := (triNormal_spec c).resolve_right (by rw [hok]; simp)
  obtain ⟨-, m1, -, k', hk', hm⟩ := (triNormal_spec (Function.update c i q)).resolve_right (by rw [hi]; simp)
  have hm' : ∀ d, (triNormal (Function.update c i q)).1 d = k' * l i * areaVec c d := fun d => by rw [hm d, areaVec_update c q l h1 hq i d]; ring
  rw [funext hm'] at m1 ⊢
  rw [funext hn] at n1 ⊢
  rw [dot3_smul_smul] at m1 n1
  have hprod : dot3 (fun d => k' * l i * areaVec c d) (fun d => k * areaVec c d) = k' * k * dot3 (areaVec c) (areaVec c) * l i := by unfold dot3; ring
  rw [hprod]
  have hpos : 0 < k' * k * dot3 (areaVec c) (areaVec c) := by positivity
  have hsq : (k' * k * dot3 (areaVec c) (areaVec c) * l i) ^ 2 = 1 := by
    calc (k' * k * dot3 (areaVec c) (areaVec c) * l i) ^ 2 = ((k' * l i) ^ 2 * dot3 (areaVec c) (areaVec c)) * (k ^ 2 * dot3 (areaVec c) (areaVec c)) := by ring
      _ = 1 := by rw [m1, n1, one_mul]
  set w := k' * k * dot3 (areaVec c) (areaVec c)
  constructor
  · intro h
    by_contra hc
    have : 0 ≤ w * l i := mul_nonneg hpos.le (not_lt.1 hc)
    norm_num at h; linarith
  · intro h
    by_contra hc
    have h2 : w * l i ≤ 0 := mul_nonpos_of_nonneg_of_nonpos hpos.le (not_lt.1 hc)
    have h3 : w * l i = 1 ∨ w * l i = -1 := by
      have h4 : (w * l i - 1) * (w * l i + 1) = 0 := by linear_combination hsq
      rcases mul_eq_zero.1 h4 with h5 | h5
      · left; linarith
      · right; linarith
    rcases h3 with h3 | h3
    · linarith
    · apply h; rw [h3]; norm_num

theorem insideLoop_true (c : Fin 3 → V3) (n q : V3) (is : List (Fin 3)) :
    insideLoop c n q is = true ↔ ∀ i ∈ is, (triNormal (Function.update c (prev3 i) q)).2 = true →
      ¬ dot3 (triNormal (Function.update c (prev3 i) q)).1 n < -1e-10 := by
  induction is with
  | nil => simp [insideLoop]
  | cons i is ih =>
    rw [insideLoop, List.forall_mem_cons]
    split
    · rename_i h
      split
      · rename_i h2
        simp only [Bool.false_eq_true, false_iff]
        exact fun hc => hc.1 h h2
      · rename_i h2
        rw [ih]; exact ⟨fun hc => ⟨fun _ => h2, hc⟩, fun hc => hc.2⟩
    · rename_i h
      rw [ih]; exact ⟨fun hc => ⟨fun h' => absurd h' h, hc⟩, fun hc => hc.2⟩

theorem edgeLoop_spec (p : V3) (c : Fin 3 → V3) (hne : ∀ i, c i ≠ c (next3 i)) (is : List (Fin 3)) (s : Option ℝ × V3)
    (hs : ∀ h, s.1 = some h → h = dist3 p s.2) :
    (is ≠ [] → ∃ h, (edgeLoop p c is s).1 = some h) ∧
    (edgeLoop p c is s = s ∨ ∃ i ∈ is, OnSegment (c i) (c (next3 i)) (edgeLoop p c is s).2) ∧
    (∀ h, s.1 = some h → dist3 p (edgeLoop p c is s).2 ≤ h) ∧
    ∀ i ∈ is, ∀ x, OnSegment (c i) (c (next3 i)) x → dist3 p (edgeLoop p c is s).2 ≤ dist3 p x := by
  induction is generalizing s with
  | nil => exact ⟨fun h => absurd rfl h, Or.inl rfl, fun h hh => (hs h hh).ge, fun i hi => by simp at hi⟩
  | cons i is ih =>
    obtain ⟨a, ea, hseg, hmin⟩ := clampPoint_spec p (c i) (c (next3 i)) (hne i)
    -- the state after this edge
    obtain ⟨s', es, hs', hsome, hle, hcase⟩ : ∃ s' : Option ℝ × V3, edgeLoop p c (i :: is) s = edgeLoop p c is s' ∧ (∀ h, s'.1 = some h → h = dist3 p s'.2) ∧
        (∃ h, s'.1 = some h ∧ h ≤ dist3 p a) ∧ (∀ h, s.1 = some h → ∃ h', s'.1 = some h' ∧ h' ≤ h) ∧ (s' = s ∨ s' = (some (dist3 a p), a)) := by
      rw [edgeLoop, ea]
      simp only
      cases hs1 : s.1 with
      | none =>
        exact ⟨_, rfl, fun h hh => by rw [← Option.some.inj hh]; exact dist3_comm _ _, ⟨_, rfl, (dist3_comm _ _).le⟩, fun h hh => by simp at hh, Or.inr rfl⟩
      | some h0 =>
        simp only
        by_cases hlt : dist3 a p < h0
        · rw [if_pos hlt]
          exact ⟨_, rfl, fun h hh => by rw [← Option.some.inj hh]; exact dist3_comm _ _, ⟨_, rfl, (dist3_comm _ _).le⟩,
            fun h hh => ⟨_, rfl, by rw [← Option.some.inj hh]; exact hlt.le⟩, Or.inr rfl⟩
        · rw [if_neg hlt]
          exact ⟨s, rfl, hs, ⟨h0, hs1, by rw [dist3_comm p a]; exact not_lt.1 hlt⟩, fun h hh => ⟨h0, hs1, by rw [Option.some.inj hh]⟩, Or.inl rfl⟩
    obtain ⟨i1, i2, i3, i4⟩ := ih s' hs'
    rw [es]
    obtain ⟨h', hh', hha⟩ := hsome
    refine ⟨fun _ => ?_, ?_, fun h hh => ?_, fun j hj x hx => ?_⟩
    · by_cases hnil : is = []
      · subst hnil; exact ⟨h', hh'⟩
      · exact i1 hnil
    · rcases i2 with i2 | ⟨j, hj, hx⟩
      · rcases hcase with hc | hc
        · left; rw [i2, hc]
        · right; refine ⟨i, by simp, ?_⟩; rw [i2, hc]; exact hseg
      · exact Or.inr ⟨j, by simp [hj], hx⟩
    · obtain ⟨h2, hh2, hle2⟩ := hle h hh
      exact (i3 h2 hh2).trans hle2
    · rcases List.mem_cons.1 hj with rfl | hj
      · exact ((i3 h' hh').trans hha).trans (hmin x hx)
      · exact i4 j hj x hx

/-- A segment that leaves the triangle crosses its boundary. -/
theorem boundary_crossing (l m : Fin 3 → ℝ) (hl : ∀ i, 0 ≤ l i) (hm : ∃ i, m i < 0) :
    ∃ t : ℝ, 0 ≤ t ∧ t ≤ 1 ∧ (∀ i, 0 ≤ (1 - t) * l i + t * m i) ∧ ∃ i, (1 - t) * l i + t * m i = 0 := by
  obtain ⟨i0, hi0⟩ := hm
  have hex : (Finset.univ.filter fun i => m i < 0).Nonempty := ⟨i0, by simp [hi0]⟩
  obtain ⟨i, hi, hmin⟩ := Finset.exists_min_image _ (fun i => l i / (l i - m i)) hex
  have hneg : m i < 0 := by simpa using hi
  have hd : ∀ j, m j < 0 → 0 < l j - m j := fun j hj => by linarith [hl j]
  have ht : l i / (l i - m i) * (l i - m i) = l i := by have := (hd i hneg).ne'; field_simp
  refine ⟨l i / (l i - m i), div_nonneg (hl i) (hd i hneg).le, ?_, fun j => ?_, i, by linarith⟩
  · rw [div_le_one (hd i hneg)]; linarith
  · have ht0 : 0 ≤ l i / (l i - m i) := div_nonneg (hl i) (hd i hneg).le
    have ht1 : l i / (l i - m i) ≤ 1 := by rw [div_le_one (hd i hneg)]; linarith
    by_cases hj : m j < 0
    · have h1 := hmin j (by simp [hj])
      have h2 := mul_le_mul_of_nonneg_right h1 (hd j hj).le
      have h3 : l j / (l j - m j) * (l j - m j) = l j := by have := (hd j hj).ne'; field_simp
      rw [h3] at h2
      linarith
    · have := mul_nonneg ht0 (not_lt.1 hj)
      have := mul_nonneg (sub_nonneg.2 ht1) (hl j)
      linarith

/-- A point of the boundary lies on an edge. -/
theorem onSegment_of_zero (c : Fin 3 → V3) (l : Fin 3 → ℝ) (hl : ∀ i, 0 ≤ l i) (h1 : ∑ i, l i = 1) (i : Fin 3) (hi : l i = 0) (x : V3) (hx : ∀ d, x d = ∑ i, l i * c i d) :
    ∃ j, OnSegment (c j) (c (next3 j)) x := by
  rw [Fin.sum_univ_three] at h1
  refine ⟨next3 i, l (next3 (next3 i)), hl _, ?_, fun d => ?_⟩
  · have a0 := hl 0; have a1 := hl 1; have a2 := hl 2
    fin_cases i <;> simp [next3] at hi ⊢ <;> linarith
  · rw [hx d, Fin.sum_univ_three]
    fin_cases i
    · have h0 : l 0 = 0 := hi
      have : l 1 = 1 - l 2 := by linarith
      simp [next3, h0, this]; ring
    · have h0 : l 1 = 0 := hi
      have : l 2 = 1 - l 0 := by linarith
      simp [next3, h0, this]; ring
    · have h0 : l 2 = 0 := hi
      have : l 0 = 1 - l 1 := by linarith
      simp [next3, h0, this]; ring

theorem inTri_of_onSegment (c : Fin 3 → V3) (j : Fin 3) (x : V3) (h : OnSegment (c j) (c (next3 j)) x) : InTri c x := by
  obtain ⟨t, h0, h1, hx⟩ := h
  fin_cases j
  · refine ⟨![1 - t, t, 0], fun i => ?_, by simp [Fin.sum_univ_three], fun d => ?_⟩
    · fin_cases i <;> simp <;> linarith
    · rw [hx d, Fin.sum_univ_three]; simp [next3]; ring
  · refine ⟨![0, 1 - t, t], fun i => ?_, by simp [Fin.sum_univ_three], fun d => ?_⟩
    · fin_cases i <;> simp <;> linarith
    · rw [hx d, Fin.sum_univ_three]; simp [next3]; ring
  · refine ⟨![t, 0, 1 - t], fun i => ?_, by simp [Fin.sum_univ_three], fun d => ?_⟩
    · fin_cases i <;> simp <;> linarith
    · rw [hx d, Fin.sum_univ_three]; simp [next3]; ring

theorem len3_mul_le (c : Fin 3 → V3) : len3 (areaVec c) ≤ len3 (fun d => c 1 d - c 0 d) * len3 (fun d => c 2 d - c 0 d) := by
  unfold len3
  rw [← Real.sqrt_mul (dot3_self_nonneg _)]
  apply Real.sqrt_le_sqrt
  unfold areaVec
  set u : V3 := fun d => c 1 d - c 0 d
  set v : V3 := fun d => c 2 d - c 0 d
  have : dot3 (cross3 u v) (cross3 u v) = dot3 u u * dot3 v v - dot3 u v * dot3 u v := by
    unfold cross3 dot3; simp; ring
  rw [this]
  linarith [mul_self_nonneg (dot3 u v)]

/-- The sum of the lengths, and the product, of the two edges from the first corner: the scale of the tolerance of `get_3d_triangle_normal`. -/
noncomputable def triScale (c : Fin 3 → V3) : ℝ :=
  len3 (fun d => c 1 d - c 0 d) + len3 (fun d => c 2 d - c 0 d) + len3 (fun d => c 1 d - c 0 d) * len3 (fun d => c 2 d - c 0 d)

theorem triNormal_false (c : Fin 3 → V3) (h : (triNormal c).2 = false) : len3 (areaVec c) ≤ 1e-10 * triScale c := by
  obtain ⟨-, h⟩ := (triNormal_spec c).resolve_left (by rw [h]; simp)
  have ha : 0 ≤ len3 (fun d => c 1 d - c 0 d) := Real.sqrt_nonneg _
  have hb : 0 ≤ len3 (fun d => c 2 d - c 0 d) := Real.sqrt_nonneg _
  have hle := len3_mul_le c
  unfold triScale
  set la := len3 (fun d => c 1 d - c 0 d)
  set lb := len3 (fun d => c 2 d - c 0 d)
  have hab := mul_nonneg ha hb
  rcases h with h | h | h
  · have := mul_le_mul_of_nonneg_right h.le hb
    nlinarith
  · have := mul_le_mul_of_nonneg_left h.le ha
    nlinarith
  · nlinarith

/-- **C43 for triangles with a normal.** For every query point and every triangle for which `get_3d_triangle_normal` succeeds, the reported
distance is that of the returned point, and no point of the triangle is nearer.  The returned point lies in the triangle, or it is the foot
of the perpendicular and lies outside of some edges only by less than the tolerance: each of its barycentric coordinates is positive or the
triangle it spans with the opposite edge counts as degenerate. -/
theorem C43_triangle_projection_partial (p : V3) (c : Fin 3 → V3) (hok : (triNormal c).2 = true) :
    (projTriangle p c).2 = dist3 p (projTriangle p c).1 ∧
    (∀ x, InTri c x → (projTriangle p c).2 ≤ dist3 p x) ∧
    (InTri c (projTriangle p c).1 ∨ ∃ l : Fin 3 → ℝ, ∑ i, l i = 1 ∧ (∀ d, (projTriangle p c).1 d = ∑ i, l i * c i d) ∧
      ∀ i, 0 < l i ∨ (triNormal (Function.update c i (projTriangle p c).1)).2 = false ∧
        |l i| * len3 (areaVec c) ≤ 1e-10 * triScale (Function.update c i (projTriangle p c).1)) ∧
    ((∀ i, (triNormal (Function.update c i (planeFoot p c))).2 = true) → InTri c (projTriangle p c).1) := by
  obtain ⟨-, n1, NN, k, hk, hn⟩ := (triNormal_spec c).resolve_right (by rw [hok]; simp)
  -- the foot of the perpendicular
  have hqN : dot3 (fun d => planeFoot p c d - c 0 d) (areaVec c) = 0 := by
    have h1 : dot3 (fun d => planeFoot p c d - c 0 d) (triNormal c).1 = 0 := by
      unfold planeFoot
      have : dot3 (fun d => p d + dot3 (fun d => c 0 d - p d) (triNormal c).1 * (triNormal c).1 d - c 0 d) (triNormal c).1 =
          dot3 (fun d => c 0 d - p d) (triNormal c).1 * (dot3 (triNormal c).1 (triNormal c).1 - 1) := by
        unfold dot3; ring
      rw [this, n1, sub_self, mul_zero]
    rw [funext hn] at h1
    have : dot3 (fun d => planeFoot p c d - c 0 d) (fun d => k * areaVec c d) = k * dot3 (fun d => planeFoot p c d - c 0 d) (areaVec c) := by
      unfold dot3; ring
    rw [this] at h1
    exact (mul_eq_zero.1 h1).resolve_left hk.ne'
  obtain ⟨m, hm1, hmq⟩ := plane_coordinates c NN _ hqN
  have hpq : ∀ d, p d - planeFoot p c d = -dot3 (fun d => c 0 d - p d) (triNormal c).1 * k * areaVec c d := by
    intro d
    unfold planeFoot
    rw [hn d]; ring
  set q := planeFoot p c with hqdef
  -- points of the plane: Pythagoras
  have pyth : ∀ l : Fin 3 → ℝ, ∑ i, l i = 1 → ∀ x : V3, (∀ d, x d = ∑ i, l i * c i d) →
      dot3 (fun d => p d - x d) (fun d => p d - x d) = dot3 (fun d => p d - q d) (fun d => p d - q d) + dot3 (fun d => q d - x d) (fun d => q d - x d) := by
    intro l hl x hx
    have horth : dot3 (fun d => p d - q d) (fun d => q d - x d) = 0 := by
      have hxN : dot3 (fun d => x d - c 0 d) (areaVec c) = 0 := by
        have h0 : l 0 = 1 - l 1 - l 2 := by rw [Fin.sum_univ_three] at hl; linarith
        have hx' : ∀ d, x d - c 0 d = l 1 * (c 1 d - c 0 d) + l 2 * (c 2 d - c 0 d) := by
          intro d; rw [hx d, Fin.sum_univ_three, h0]; ring
        rw [funext hx']
        unfold dot3 areaVec cross3; simp; ring
      rw [funext hpq]
      have : dot3 (fun d => -dot3 (fun d => c 0 d - p d) (triNormal c).1 * k * areaVec c d) (fun d => q d - x d) =
          -dot3 (fun d => c 0 d - p d) (triNormal c).1 * k * (dot3 (fun d => q d - c 0 d) (areaVec c) - dot3 (fun d => x d - c 0 d) (areaVec c)) := by
        unfold dot3; ring
      rw [this, hqN, hxN, sub_self, mul_zero]
    have : dot3 (fun d => p d - x d) (fun d => p d - x d) = dot3 (fun d => p d - q d) (fun d => p d - q d) + dot3 (fun d => q d - x d) (fun d => q d - x d) +
        2 * dot3 (fun d => p d - q d) (fun d => q d - x d) := by unfold dot3; ring
    rw [this, horth]; ring
  have hfoot : ∀ x, InTri c x → dist3 p q ≤ dist3 p x := by
    rintro x ⟨l, -, hl1, hx⟩
    rw [dist3_le_iff, pyth l hl1 x hx]
    linarith [dot3_self_nonneg fun d => q d - x d]
  have hprev : ∀ i : Fin 3, ∃ j ∈ ([0, 1, 2] : List (Fin 3)), prev3 j = i := by decide
  unfold projTriangle
  simp only
  rw [← hqdef]
  by_cases hin : insideLoop c (triNormal c).1 q [0, 1, 2] = true
  · rw [if_pos hin]
    have hside := (insideLoop_true c (triNormal c).1 q [0, 1, 2]).1 hin
    have hpos : ∀ i, (triNormal (Function.update c i q)).2 = true → 0 < m i := by
      intro i hi
      obtain ⟨j, hj, rfl⟩ := hprev i
      exact (side_test c hok q m hm1 hmq _ hi).2 (hside j hj hi)
    refine ⟨rfl, hfoot, Or.inr ⟨m, hm1, hmq, fun i => ?_⟩, fun hall => ⟨m, fun i => (hpos i (hall i)).le, hm1, hmq⟩⟩
    cases hi : (triNormal (Function.update c i q)).2 with
    | true => exact Or.inl (hpos i hi)
    | false =>
      refine Or.inr ⟨rfl, ?_⟩
      have := triNormal_false _ hi
      rw [funext (areaVec_update c q m hm1 hmq i)] at this
      have hlen : len3 (fun d => m i * areaVec c d) = |m i| * len3 (areaVec c) := by
        unfold len3
        rw [dot3_smul_smul, Real.sqrt_mul (sq_nonneg _), Real.sqrt_sq_eq_abs]
      rw [hlen] at this
      exact this
  · rw [if_neg hin]
    have hneg : ∃ i, m i < 0 := by
      rw [insideLoop_true] at hin
      push Not at hin
      obtain ⟨j, -, hj, hlt⟩ := hin
      exact ⟨_, (side_test c hok q m hm1 hmq _ hj).1 hlt⟩
    have hne : ∀ i, c i ≠ c (next3 i) := by
      intro i hc
      apply NN.ne'
      have : areaVec c = fun _ => 0 := by
        unfold areaVec cross3
        fin_cases i
        · have h0 : c 0 = c 1 := hc
          funext d; fin_cases d <;> simp [h0]
        · have h0 : c 1 = c 2 := hc
          funext d; fin_cases d <;> simp [h0] <;> ring
        · have h0 : c 2 = c 0 := hc
          funext d; fin_cases d <;> simp [h0]
      rw [this]; simp [dot3]
    obtain ⟨e1, e2, -, e4⟩ := edgeLoop_spec p c hne [0, 1, 2] (none, q) (fun h hh => by simp at hh)
    set r := edgeLoop p c [0, 1, 2] (none, q) with hr
    have hon : ∃ i, OnSegment (c i) (c (next3 i)) r.2 := by
      rcases e2 with e2 | ⟨i, -, h⟩
      · obtain ⟨h, hh⟩ := e1 (by simp)
        rw [e2] at hh; simp at hh
      · exact ⟨i, h⟩
    obtain ⟨j, hj⟩ := hon
    have hT := inTri_of_onSegment c j _ hj
    refine ⟨rfl, ?_, Or.inl hT, fun _ => hT⟩
    rintro x ⟨l, hl0, hl1, hx⟩
    obtain ⟨t, ht0, ht1, hall, i, hi⟩ := boundary_crossing l m hl0 hneg
    have hy1 : ∑ i, ((1 - t) * l i + t * m i) = 1 := by
      rw [Finset.sum_add_distrib, ← Finset.mul_sum, ← Finset.mul_sum, hl1, hm1]; ring
    obtain ⟨j', hseg⟩ := onSegment_of_zero c (fun i => (1 - t) * l i + t * m i) hall hy1 i hi (fun d => ∑ i, ((1 - t) * l i + t * m i) * c i d) (fun d => rfl)
    have h4 := e4 j' (by fin_cases j' <;> simp) _ hseg
    refine h4.trans ?_
    rw [dist3_le_iff, pyth _ hy1 _ (fun d => rfl), pyth l hl1 x hx]
    have hqy : ∀ d, q d - ∑ i, ((1 - t) * l i + t * m i) * c i d = (1 - t) * (q d - x d) := by
      intro d
      rw [hmq d, hx d]
      simp only [Fin.sum_univ_three]; ring
    rw [funext hqy, dot3_smul_smul]
    have h0 := dot3_self_nonneg fun d => q d - x d
    have : (1 - t) ^ 2 ≤ 1 := by nlinarith
    nlinarith

theorem triNormal_flat (c : Fin 3 → V3) (h : ∀ d, areaVec c d = 0) (d : Fin 3) : (triNormal c).1 d = 0 := by
  have hA := normalize3_spec fun d => c 1 d - c 0 d
  have hB := normalize3_spec fun d => c 2 d - c 0 d
  unfold triNormal
  simp only
  rcases hA with ⟨a1, a2, a3⟩ | ⟨a1, a2⟩
  · rcases hB with ⟨b1, b2, b3⟩ | ⟨b1, b2⟩
    · rw [a1, b1, a3, b3]
      simp only [Bool.not_true, Bool.or_self, Bool.false_eq_true, if_false]
      rw [cross3_smul]
      have h' : ∀ d, cross3 (fun d => c 1 d - c 0 d) (fun d => c 2 d - c 0 d) d = 0 := h
      split <;> simp [h']
    · rw [b1]; simp
  · rw [a1]; simp

/-- **C43 is false for collinear corners.** For every triangle without area the code returns the query point itself and distance 0. -/
theorem C43_degenerate_false (p : V3) (c : Fin 3 → V3) (h : ∀ d, areaVec c d = 0) : (projTriangle p c).1 = p ∧ (projTriangle p c).2 = 0 := by
  have hn := triNormal_flat c h
  have hq : planeFoot p c = p := by
    unfold planeFoot
    funext d
    rw [hn d]; ring
  have hin : insideLoop c (triNormal c).1 p [0, 1, 2] = true := by
    rw [insideLoop_true]
    intro i _ _
    rw [funext hn]
    unfold dot3; norm_num
  unfold projTriangle
  rw [hq, if_pos hin]
  refine ⟨rfl, ?_⟩
  simp [dist3]

/-- The witness: corners `(0,0,0), (1,0,0), (2,0,0)` and the query `(0,0,5)`, which is at distance at least 5 from every point of the triangle. -/
theorem C43_degenerate_witness : ∃ (p : V3) (c : Fin 3 → V3), (projTriangle p c).1 = p ∧ (projTriangle p c).2 = 0 ∧ ∀ x, InTri c x → 5 ≤ dist3 p x := by
  obtain ⟨h1, h2⟩ := C43_degenerate_false ![0, 0, 5] ![![0, 0, 0], ![1, 0, 0], ![2, 0, 0]] (fun d => by fin_cases d <;> simp [areaVec, cross3])
  refine ⟨_, _, h1, h2, ?_⟩
  rintro x ⟨l, -, -, hx⟩
  have hx2 : x 2 = 0 := by rw [hx 2, Fin.sum_univ_three]; simp
  have : (5 : ℝ) ^ 2 ≤ dist3 ![0, 0, 5] x ^ 2 := by
    rw [dist3_sq]
    unfold dot3
    simp [hx2]
    nlinarith [mul_self_nonneg (x 0), mul_self_nonneg (x 1)]
  nlinarith [dist3_nonneg ![0, 0, 5] x]

-- the right triangle with legs of length 1 along the first two axes has a normal
example : (triNormal fun i d => if i = 1 ∧ d = 0 ∨ i = 2 ∧ d = 1 then 1 else 0).2 = true := by
  have h1 : len3 (fun d => (if d = 0 then 1 else 0 : ℝ)) = 1 := by simp [len3, dot3]
  have h2 : len3 (fun d => (if d = 1 then 1 else 0 : ℝ)) = 1 := by simp [len3, dot3]
  have h3 : len3 (areaVec fun i d => (if i = 1 ∧ d = 0 ∨ i = 2 ∧ d = 1 then 1 else 0 : ℝ)) = 1 := by simp [len3, dot3, areaVec, cross3]
  rcases triNormal_spec fun i d => (if i = 1 ∧ d = 0 ∨ i = 2 ∧ d = 1 then 1 else 0 : ℝ) with h | h
  · exact h.1
  · exfalso
    obtain ⟨-, h⟩ := h
    simp [h1, h2, h3] at h
    norm_num at h

end VoroCrust
