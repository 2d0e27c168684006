import Verif.Props.KdQuery
import Mathlib.Analysis.InnerProductSpace.PiL2

/-! # The Euclidean distance on coordinate functions is a metric and convex -/

namespace VoroCrust

/-- The first `n` coordinates as a point of Euclidean space. -/
noncomputable def toE (n : Nat) (x : Nat → ℝ) : EuclideanSpace ℝ (Fin n) := WithLp.toLp 2 (fun d : Fin n => x d)

theorem euclid_eq_dist (n : Nat) (x y : Nat → ℝ) : euclid n x y = dist (toE n x) (toE n y) := by
  rw [EuclideanSpace.dist_eq]
  unfold euclid toE
  congr 1
  rw [Finset.sum_range]
  refine Finset.sum_congr rfl fun i _ => ?_
  rw [Real.dist_eq, sq_abs]

theorem euclid_nonneg (n : Nat) (x y : Nat → ℝ) : 0 ≤ euclid n x y := Real.sqrt_nonneg _

theorem euclid_self (n : Nat) (x : Nat → ℝ) : euclid n x x = 0 := by rw [euclid_eq_dist, dist_self]

theorem euclid_comm (n : Nat) (x y : Nat → ℝ) : euclid n x y = euclid n y x := by
  rw [euclid_eq_dist, euclid_eq_dist, dist_comm]

theorem euclid_triangle (n : Nat) (x y z : Nat → ℝ) : euclid n x z ≤ euclid n x y + euclid n y z := by
  rw [euclid_eq_dist, euclid_eq_dist, euclid_eq_dist]; exact dist_triangle _ _ _

theorem euclid_congr {n : Nat} {x x' y y' : Nat → ℝ} (hx : ∀ d, d < n → x d = x' d) (hy : ∀ d, d < n → y d = y' d) :
    euclid n x y = euclid n x' y' := by
  unfold euclid
  congr 1
  refine Finset.sum_congr rfl fun d hd => ?_
  rw [hx d (Finset.mem_range.1 hd), hy d (Finset.mem_range.1 hd)]

/-- A convex combination of three points is in every ball that contains them. -/
theorem euclid_convex3 (n : Nat) (A B C c : Nat → ℝ) {a b g R : ℝ} (ha : 0 ≤ a) (hb : 0 ≤ b) (hg : 0 ≤ g) (h1 : a + b + g = 1)
    (hA : euclid n A c < R) (hB : euclid n B c < R) (hC : euclid n C c < R) :
    euclid n (fun d => a * A d + b * B d + g * C d) c < R := by
  rw [euclid_eq_dist] at *
  have e : toE n (fun d => a * A d + b * B d + g * C d) = a • toE n A + b • toE n B + g • toE n C := by
    ext d; simp [toE]
  rw [e, dist_eq_norm]
  have e2 : a • toE n A + b • toE n B + g • toE n C - toE n c = a • (toE n A - toE n c) + b • (toE n B - toE n c) + g • (toE n C - toE n c) := by
    have : toE n c = (a + b + g) • toE n c := by rw [h1, one_smul]
    conv_lhs => rw [this]
    module
  rw [e2]
  rw [dist_eq_norm] at hA hB hC
  have t1 : ‖a • (toE n A - toE n c) + b • (toE n B - toE n c) + g • (toE n C - toE n c)‖ ≤
      a * ‖toE n A - toE n c‖ + b * ‖toE n B - toE n c‖ + g * ‖toE n C - toE n c‖ := by
    refine (norm_add₃_le).trans ?_
    rw [norm_smul, norm_smul, norm_smul, Real.norm_of_nonneg ha, Real.norm_of_nonneg hb, Real.norm_of_nonneg hg]
  refine lt_of_le_of_lt t1 ?_
  have : a * ‖toE n A - toE n c‖ ≤ a * R := mul_le_mul_of_nonneg_left hA.le ha
  have : b * ‖toE n B - toE n c‖ ≤ b * R := mul_le_mul_of_nonneg_left hB.le hb
  have : g * ‖toE n C - toE n c‖ ≤ g * R := mul_le_mul_of_nonneg_left hC.le hg
  have hs : a * R + b * R + g * R = R := by rw [← add_mul, ← add_mul, h1, one_mul]
  rcases lt_or_eq_of_le ha with h | h
  · have : a * ‖toE n A - toE n c‖ < a * R := mul_lt_mul_of_pos_left hA h
    linarith
  · rcases lt_or_eq_of_le hb with h' | h'
    · have : b * ‖toE n B - toE n c‖ < b * R := mul_lt_mul_of_pos_left hB h'
      linarith
    · have h'' : 0 < g := by linarith
      have : g * ‖toE n C - toE n c‖ < g * R := mul_lt_mul_of_pos_left hC h''
      linarith

/-- A convex combination of two points is in every ball that contains them. -/
theorem euclid_convex2 (n : Nat) (A B c : Nat → ℝ) {a b R : ℝ} (ha : 0 ≤ a) (hb : 0 ≤ b) (h1 : a + b = 1)
    (hA : euclid n A c < R) (hB : euclid n B c < R) : euclid n (fun d => a * A d + b * B d) c < R := by
  have := euclid_convex3 n A B B c ha hb le_rfl (by linarith) hA hB hB
  simpa using this

end VoroCrust
