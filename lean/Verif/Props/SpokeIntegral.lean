import Verif.Model.SpokeIntegral
import Verif.Props.LeastSquares
import Mathlib.MeasureTheory.Measure.Lebesgue.VolumeOfBalls
import Mathlib.MeasureTheory.Constructions.HaarToSphere
import Mathlib.Analysis.SpecialFunctions.Integrals.Basic
import Mathlib.Algebra.Polynomial.Eval.Degree
import Mathlib.Topology.Order.IntermediateValue

/-! # Property C115: integration over a cell along spokes -/

namespace VoroCrust

open MeasureTheory

/-! ## The area of the sphere -/

/-- The area of the unit sphere of `n` dimensions, as the measure of Mathlib. -/
noncomputable def sphereArea (n : Nat) : ℝ := (volume : Measure (EuclideanSpace ℝ (Fin n))).toSphere.real Set.univ

/-- The volume of a ball of radius `r` of `n` dimensions. -/
noncomputable def ballVolume (n : Nat) (r : ℝ) : ℝ := (volume : Measure (EuclideanSpace ℝ (Fin n))).real (Metric.ball 0 r)

theorem ballVolume_eq {n : Nat} (hn : 1 ≤ n) {r : ℝ} (hr : 0 ≤ r) : ballVolume n r = r ^ n * (Real.sqrt Real.pi ^ n / Real.Gamma (n / 2 + 1)) := by
  haveI : Nonempty (Fin n) := ⟨⟨0, by omega⟩⟩
  have hG : 0 < Real.Gamma ((n : ℝ) / 2 + 1) := Real.Gamma_pos_of_pos (by positivity)
  rw [ballVolume, measureReal_def, EuclideanSpace.volume_ball, ENNReal.toReal_mul, ENNReal.toReal_pow, ENNReal.toReal_ofReal hr, ENNReal.toReal_ofReal (by rw [Fintype.card_fin]; positivity),
    Fintype.card_fin]

theorem sphereArea_ball (n : Nat) : sphereArea n = n * ballVolume n 1 := by
  rw [sphereArea, Measure.toSphere_real_apply_univ, finrank_euclideanSpace, Fintype.card_fin]
  rfl

theorem sphereArea_eq {n : Nat} (hn : 1 ≤ n) : sphereArea n = n * (Real.sqrt Real.pi ^ n / Real.Gamma (n / 2 + 1)) := by
  rw [sphereArea_ball, ballVolume_eq hn zero_le_one, one_pow, one_mul]

theorem gammaEven_eq : ∀ k, k < 21 → 1 ≤ k → gammaEven k k = k.factorial := by decide +kernel

theorem gammaOdd_eq : ∀ (k : Nat) (g : ℝ), gammaOdd (2 * k + 1) g * Real.sqrt Real.pi = g * Real.Gamma (((2 * k + 1 : Nat) : ℝ) / 2) := by
  intro k
  induction k with
  | zero =>
    intro g
    have : ((2 * 0 + 1 : Nat) : ℝ) / 2 = 1 / 2 := by norm_num
    rw [this, Real.Gamma_one_half_eq]
    rfl
  | succ k ih =>
    intro g
    have e : gammaOdd (2 * (k + 1) + 1) g = gammaOdd (2 * k + 1) (g * (0.5 * ((2 * k + 1 : Nat) : ℝ))) := rfl
    have h2 : ((2 * (k + 1) + 1 : Nat) : ℝ) / 2 = ((2 * k + 1 : Nat) : ℝ) / 2 + 1 := by push_cast; ring
    rw [e, ih, h2, Real.Gamma_add_one (by positivity)]
    ring

/-- **C115, the constant.** `spherical_integration_constant` is the area of the unit sphere, in every odd dimension and in even dimensions up to 40. -/
theorem C115_sphere_constant (n : Nat) (hn : 1 ≤ n) (h : n % 2 = 1 ∨ n < 42) : sphereConstant n = some (sphereArea n) := by
  have hpi := Real.pi_pos
  rw [sphereArea_eq hn, sphereConstant]
  by_cases he : n / 2 * 2 = n
  · have hk := gammaEven_eq (n / 2) (by omega) (by omega)
    rw [if_pos he, hk, if_neg (Nat.factorial_ne_zero _)]
    obtain ⟨k, rfl⟩ : ∃ k, n = 2 * k := ⟨n / 2, by omega⟩
    have e1 : 2 * k / 2 = k := by omega
    have e2 : ((2 * k : Nat) : ℝ) / 2 + 1 = (k : ℝ) + 1 := by push_cast; ring
    rw [e1, e2, Real.Gamma_nat_eq_factorial, pow_mul, Real.sq_sqrt hpi.le, mul_div_assoc]
  · rw [if_neg he]
    obtain ⟨k, rfl⟩ : ∃ k, n = 2 * k + 1 := ⟨n / 2, by omega⟩
    have e1 : (2 * k + 1) / 2 = k := by omega
    have hs : 0 < Real.sqrt Real.pi := Real.sqrt_pos.2 hpi
    have hg := gammaOdd_eq k (0.5 * ((2 * k + 1 : Nat) : ℝ))
    have e3 : (0.5 : ℝ) * ((2 * k + 1 : Nat) : ℝ) * Real.Gamma (((2 * k + 1 : Nat) : ℝ) / 2) = Real.Gamma (((2 * k + 1 : Nat) : ℝ) / 2 + 1) := by
      rw [Real.Gamma_add_one (by positivity)]
      ring
    rw [e3] at hg
    have hG : 0 < Real.Gamma (((2 * k + 1 : Nat) : ℝ) / 2 + 1) := Real.Gamma_pos_of_pos (by positivity)
    have hgo : gammaOdd (2 * k + 1) (0.5 * ((2 * k + 1 : Nat) : ℝ)) = Real.Gamma (((2 * k + 1 : Nat) : ℝ) / 2 + 1) / Real.sqrt Real.pi := by
      rw [eq_div_iff hs.ne', hg]
    rw [e1, hgo, pow_succ, pow_mul, Real.sq_sqrt hpi.le]
    congr 1
    field_simp

/-- **C115, finding.** In dimension 42 the factorial does not fit and the constant is not the area of the sphere; in dimension 0 it is not a number. -/
theorem C115_dimension_42_false : sphereConstant 42 ≠ some (sphereArea 42) ∧ sphereConstant 0 = none := by
  have hpi := Real.pi_pos
  refine ⟨fun h => ?_, by simp [sphereConstant, gammaEven]⟩
  have e : gammaEven (42 / 2) (42 / 2) = 14197454024290336768 := by decide +kernel
  rw [sphereArea_eq (by norm_num), sphereConstant, if_pos (by norm_num), e, if_neg (by norm_num)] at h
  have h := Option.some.inj h
  have e2 : (((42 : Nat) : ℝ) / 2 + 1) = ((21 : Nat) : ℝ) + 1 := by norm_num
  rw [e2, Real.Gamma_nat_eq_factorial, show (42 : Nat) = 2 * 21 by norm_num, pow_mul, Real.sq_sqrt hpi.le, mul_div_assoc] at h
  have hp : (0 : ℝ) < Real.pi ^ 21 := by positivity
  have h := mul_left_cancel₀ (by norm_num) h
  rw [show 2 * 21 / 2 = 21 by norm_num, div_eq_div_iff (by norm_num) (by positivity)] at h
  have h := mul_left_cancel₀ hp.ne' h
  have : ((Nat.factorial 21 : Nat) : ℝ) = 51090942171709440000 := by norm_num [Nat.factorial]
  rw [this] at h
  norm_num at h

/-! ## The integral along a spoke -/

/-- The matrix of the powers of the distances of `m` points on a spoke of length `len`. -/
noncomputable def powerMatrix (m : Nat) (len : ℝ) : Nat → Nat → ℝ := fun i j => (i * (len / (m - 1 : ℝ))) ^ j

theorem spokeCoef_poly {g : (Nat → ℝ) → ℝ} {m : Nat} {x e : Nat → ℝ} {len : ℝ} (hm : 2 ≤ m) (hl : 0 < len) {p : Polynomial ℝ} (hp : p.natDegree < m)
    (hg : ∀ r, 0 ≤ r → r ≤ len → g (spokePoint x e len r) = p.eval r) (hc : ∀ j, j < m → ColumnFar m (powerMatrix m len) j) :
    ∃ c, spokeCoef g m x e len = some c ∧ ∀ j, j < m → c j = some (p.coeff j) := by
  rw [spokeCoef, if_neg hl.ne']
  obtain ⟨c, y, e1, e2, e3⟩ := C95_full_rank m m le_rfl (by omega) (powerMatrix m len) (fun i => g (spokePoint x e len (i * (len / (m - 1 : ℝ))))) (fun _ => none) hc
  have hm1 : (0 : ℝ) < (m : ℝ) - 1 := by
    have : (2 : ℝ) ≤ m := by exact_mod_cast hm
    linarith
  have hz : residual m m (powerMatrix m len) (fun i => g (spokePoint x e len (i * (len / (m - 1 : ℝ))))) p.coeff = 0 := by
    refine Finset.sum_eq_zero fun i hi => ?_
    have hi : i < m := Finset.mem_range.1 hi
    have hi' : (i : ℝ) ≤ (m : ℝ) - 1 := by
      have : ((i + 1 : Nat) : ℝ) ≤ m := by exact_mod_cast hi
      push_cast at this
      linarith
    have h1 : (0 : ℝ) ≤ i * (len / (m - 1 : ℝ)) := by positivity
    have h2 : (i : ℝ) * (len / (m - 1 : ℝ)) ≤ len := by
      rw [mul_div_assoc', div_le_iff₀ hm1]
      nlinarith
    beta_reduce
    rw [hg _ h1 h2, Polynomial.eval_eq_sum_range' hp]
    have : ∑ j ∈ Finset.range m, powerMatrix m len i j * p.coeff j = ∑ j ∈ Finset.range m, p.coeff j * ((i : ℝ) * (len / (m - 1 : ℝ))) ^ j :=
      Finset.sum_congr rfl fun j _ => mul_comm _ _
    rw [this, sub_self]
    norm_num
  have hnn : 0 ≤ residual m m (powerMatrix m len) (fun i => g (spokePoint x e len (i * (len / (m - 1 : ℝ))))) y := Finset.sum_nonneg fun i _ => sq_nonneg _
  have h1 := (e3 p.coeff).1
  rw [hz] at h1
  have h2 := (e3 p.coeff).2 (by rw [hz]; exact (le_antisymm h1 hnn).symm)
  exact ⟨c, e1, fun j hj => by rw [e2 j hj, h2 j hj]⟩

theorem spokeSum_poly {n : Nat} (half : Bool) {c : Nat → Dbl} {p : Polynomial ℝ} (len t : ℝ) :
    ∀ m, (∀ j, j < m → c j = some (p.coeff j)) →
      spokeSum n half c len t m = some (∑ j ∈ Finset.range m, p.coeff j * ((t * len) ^ (j + n) - (if half then 0.5 * len else 0) ^ (j + n) * (if half then 1 else 0)) / ((j + n : Nat) : ℝ)) := by
  intro m
  induction m with
  | zero => intro _; rfl
  | succ m ih =>
    intro h
    rw [spokeSum, ih fun j hj => h j (by omega), h m (by omega), Finset.sum_range_succ]
    cases half
    · simp [dadd]
    · simp only [Option.map_some, if_true, dadd, dsub, Option.map₂, Option.bind_some, mul_one]
      congr 1
      ring

/-- Where the integration starts. -/
noncomputable def spokeFrom (half : Bool) (len : ℝ) : ℝ := if half then 0.5 * len else 0

/-- The sum is the integral. -/
theorem poly_integral {n : Nat} (hn : 1 ≤ n) {p : Polynomial ℝ} {m : Nat} (hp : p.natDegree < m) (a b : ℝ) :
    ∫ r in a..b, p.eval r * r ^ (n - 1) = ∑ j ∈ Finset.range m, p.coeff j * (b ^ (j + n) - a ^ (j + n)) / ((j + n : Nat) : ℝ) := by
  have e : ∀ r : ℝ, p.eval r * r ^ (n - 1) = ∑ j ∈ Finset.range m, p.coeff j * r ^ (j + n - 1) := by
    intro r
    rw [Polynomial.eval_eq_sum_range' hp, Finset.sum_mul]
    refine Finset.sum_congr rfl fun j _ => ?_
    rw [mul_assoc, ← pow_add, show j + (n - 1) = j + n - 1 by omega]
  simp only [e]
  rw [intervalIntegral.integral_finsetSum fun j _ => (Continuous.intervalIntegrable (by fun_prop) _ _)]
  refine Finset.sum_congr rfl fun j _ => ?_
  rw [intervalIntegral.integral_const_mul, integral_pow]
  have e2 : j + n - 1 + 1 = j + n := by omega
  have e3 : ((j + n - 1 : Nat) : ℝ) + 1 = ((j + n : Nat) : ℝ) := by rw [← e2]; push_cast; ring
  rw [e2, e3, mul_div_assoc]

theorem spokeWeight_poly {n : Nat} (hn : 1 ≤ n) (hs : sphereConstant n = some (sphereArea n)) (half : Bool) {g : (Nat → ℝ) → ℝ} {order : Nat} {x e : Nat → ℝ} {len : ℝ} (hl : 0 < len)
    {p : Polynomial ℝ} (hp : p.natDegree ≤ atLeastOne order) (hg : ∀ r, 0 ≤ r → r ≤ len → g (spokePoint x e len r) = p.eval r)
    (hc : ∀ j, j < atLeastOne order + 1 → ColumnFar (atLeastOne order + 1) (powerMatrix (atLeastOne order + 1) len) j) :
    spokeWeight n half g order x e len = some (sphereArea n * ∫ r in spokeFrom half len..len, p.eval r * r ^ (n - 1)) := by
  have hm : 2 ≤ atLeastOne order + 1 := by unfold atLeastOne; split <;> omega
  obtain ⟨c, e1, e2⟩ := spokeCoef_poly hm hl (by omega) hg hc
  simp only [spokeWeight, e1, hs, spokeSum_poly half len 1 _ e2]
  rw [poly_integral hn (m := atLeastOne order + 1) (by omega), mul_comm]
  congr 2
  refine Finset.sum_congr rfl fun j _ => ?_
  cases half
  · have : j + n ≠ 0 := by omega
    simp only [spokeFrom, Bool.false_eq_true, if_false, zero_pow this, one_mul, mul_zero]
  · simp [spokeFrom]

/-! ## The claims -/

/-- A spoke whose end is `E`, at distance `R`, along which the function is the polynomial `p`, of a degree the interpolation can represent and at points that are not too close. -/
structure SpokeData (n : Nat) (g : (Nat → ℝ) → ℝ) (order : Nat) (lo hi x : Nat → ℝ) (s : Bool × (Nat → ℝ)) (E : Nat → ℝ) (R : ℝ) (p : Polynomial ℝ) : Prop where
  ends : spokeEnd n lo hi x s.1 s.2 = some (E, R)
  pos : 0 < R
  deg : p.natDegree ≤ atLeastOne order
  along : ∀ r, 0 ≤ r → r ≤ R → g (fun d => x d + r / R * (E d - x d)) = p.eval r
  far : ∀ j, j < atLeastOne order + 1 → ColumnFar (atLeastOne order + 1) (powerMatrix (atLeastOne order + 1) R) j

/-- **C115.** If the function is a polynomial along every spoke, of the order of the cell, then `integrate_vps` returns the mean over the spokes of the area of the unit sphere times the integral of the
function with weight `r^(n-1)` along the spoke (along its outer half when the error is integrated), where a negative value counts as zero: exactly the value of integration in polar coordinates
with these directions. -/
theorem C115_cell_integral (n : Nat) (hn : 1 ≤ n) (hn2 : n % 2 = 1 ∨ n < 42) (half : Bool) (g : (Nat → ℝ) → ℝ) (order : Nat) (lo hi x : Nat → ℝ) (spokes : List (Bool × (Nat → ℝ))) (h0 : spokes ≠ [])
    (E : Bool × (Nat → ℝ) → Nat → ℝ) (R : Bool × (Nat → ℝ) → ℝ) (p : Bool × (Nat → ℝ) → Polynomial ℝ) (h : ∀ s ∈ spokes, SpokeData n g order lo hi x s (E s) (R s) (p s)) :
    integrateVps n half g order lo hi x spokes =
      some ((spokes.map fun s => max 0 (sphereArea n * ∫ r in (if half then R s / 2 else 0)..R s, (p s).eval r * r ^ (n - 1))).sum / spokes.length) := by
  have key : ∀ ss : List (Bool × (Nat → ℝ)), (∀ s ∈ ss, SpokeData n g order lo hi x s (E s) (R s) (p s)) → spokeWeights n half g order lo hi x ss =
      some (ss.map fun s => sphereArea n * ∫ r in spokeFrom half (R s)..R s, (p s).eval r * r ^ (n - 1)) := by
    intro ss
    induction ss with
    | nil => intro _; rfl
    | cons s ss ih =>
      intro hh
      have hd := hh s (by simp)
      simp only [spokeWeights, hd.ends, ih fun t ht => hh t (by simp [ht]), spokeWeight_poly hn (C115_sphere_constant n hn hn2) half hd.pos hd.deg hd.along hd.far, List.map_cons]
  have hl : spokes.length ≠ 0 := by simpa using h0
  rw [integrateVps, key spokes h]
  simp only [if_neg hl, List.map_map]
  congr 3
  refine List.map_congr_left fun s _ => ?_
  have e : spokeFrom half (R s) = if half then R s / 2 else 0 := by
    unfold spokeFrom
    split
    · ring
    · rfl
  simp only [Function.comp_apply, e]
  by_cases hw : sphereArea n * ∫ r in (if half then R s / 2 else 0)..R s, (p s).eval r * r ^ (n - 1) < 0
  · rw [if_pos hw, max_eq_left hw.le]
  · rw [if_neg hw, max_eq_right (not_lt.1 hw)]

/-- **C115, the volume.** Integrating the function 1 gives the mean of the volumes of the balls whose radii are the lengths of the spokes. -/
theorem C115_cell_volume (n : Nat) (hn : 1 ≤ n) (hn2 : n % 2 = 1 ∨ n < 42) (order : Nat) (lo hi x : Nat → ℝ) (spokes : List (Bool × (Nat → ℝ))) (h0 : spokes ≠ [])
    (E : Bool × (Nat → ℝ) → Nat → ℝ) (R : Bool × (Nat → ℝ) → ℝ) (h : ∀ s ∈ spokes, SpokeData n (fun _ => 1) order lo hi x s (E s) (R s) 1) :
    integrateVps n false (fun _ => 1) order lo hi x spokes = some ((spokes.map fun s => ballVolume n (R s)).sum / spokes.length) := by
  rw [C115_cell_integral n hn hn2 false (fun _ => 1) order lo hi x spokes h0 E R (fun _ => 1) h]
  congr 3
  refine List.map_congr_left fun s hs => ?_
  have hR := (h s hs).pos
  have hn0 : (n : ℝ) ≠ 0 := by exact_mod_cast (by omega : n ≠ 0)
  have hG : 0 < Real.Gamma ((n : ℝ) / 2 + 1) := Real.Gamma_pos_of_pos (by positivity)
  have hi : ∫ r in (0 : ℝ)..R s, (1 : Polynomial ℝ).eval r * r ^ (n - 1) = R s ^ n / n := by
    simp only [Polynomial.eval_one, one_mul, integral_pow]
    rw [show n - 1 + 1 = n by omega, zero_pow (by omega), sub_zero]
    congr 1
    rw [← Nat.cast_add_one, show n - 1 + 1 = n by omega]
  simp only [Bool.false_eq_true, if_false]
  rw [hi, sphereArea_eq hn, ballVolume_eq hn hR.le, max_eq_right (by positivity)]
  field_simp

/-! ## The search along a spoke -/

theorem spokeSearch_ends {F : ℝ → ℝ} {vm u δ : ℝ} (hv : vm ≠ 0) {a b : ℝ} (hd : ∀ s t, a ≤ s → s ≤ b → a ≤ t → t ≤ b → |s - t| < δ → |F s / vm - F t / vm| < 1e-6) :
    ∀ (k : Nat) (lo hi : ℝ), a ≤ lo → lo ≤ hi → hi ≤ b → F lo / vm ≤ u → u ≤ F hi / vm → hi - lo < δ * 2 ^ k →
      ∀ fuel, k + 1 ≤ fuel → ∃ t, spokeSearch F vm u fuel lo hi = some t ∧ lo ≤ t ∧ t ≤ hi ∧ |F t / vm - u| < 1e-6 := by
  intro k
  induction k with
  | zero =>
    intro lo hi h1 h2 h3 h4 h5 h6 fuel hf
    obtain ⟨fuel, rfl⟩ : ∃ f, fuel = f + 1 := ⟨fuel - 1, by omega⟩
    rw [pow_zero, mul_one] at h6
    have e1 := hd (0.5 * (lo + hi)) lo (by linarith) (by linarith) (by linarith) (by linarith) (by rw [abs_lt]; constructor <;> linarith)
    have e2 := hd (0.5 * (lo + hi)) hi (by linarith) (by linarith) (by linarith) (by linarith) (by rw [abs_lt]; constructor <;> linarith)
    rw [abs_lt] at e1 e2
    have e3 : |F (0.5 * (lo + hi)) / vm - u| < 1e-6 := by rw [abs_lt]; constructor <;> linarith
    refine ⟨0.5 * (lo + hi), ?_, by linarith, by linarith, e3⟩
    simp only [spokeSearch]
    rw [if_pos ⟨hv, e3⟩]
  | succ k ih =>
    intro lo hi h1 h2 h3 h4 h5 h6 fuel hf
    obtain ⟨fuel, rfl⟩ : ∃ f, fuel = f + 1 := ⟨fuel - 1, by omega⟩
    rw [pow_succ] at h6
    simp only [spokeSearch]
    by_cases hc : vm ≠ 0 ∧ |F (0.5 * (lo + hi)) / vm - u| < 1e-6
    · rw [if_pos hc]
      exact ⟨_, rfl, by linarith, by linarith, hc.2⟩
    · rw [if_neg hc]
      by_cases hu : u < F (0.5 * (lo + hi)) / vm
      · rw [if_pos hu]
        obtain ⟨t, e1, e2, e3, e4⟩ := ih lo (0.5 * (lo + hi)) h1 (by linarith) (by linarith) h4 hu.le (by linarith) fuel (by omega)
        exact ⟨t, e1, e2, by linarith, e4⟩
      · rw [if_neg hu]
        obtain ⟨t, e1, e2, e3, e4⟩ := ih (0.5 * (lo + hi)) hi (by linarith) (by linarith) h3 (not_lt.1 hu) h5 (by linarith) fuel (by omega)
        exact ⟨t, e1, by linarith, e3, e4⟩

/-- **C115, the sample.** If the function is a polynomial along the selected spoke and its integral there is not zero, then for every random number the binary search ends, and the point it returns
splits the integral along the spoke in the proportion given by the random number, up to 1E-6: the point is drawn by the inverse of the distribution. -/
theorem C115_sample (n : Nat) (hn : 1 ≤ n) (half : Bool) (g : (Nat → ℝ) → ℝ) (order : Nat) (lo hi x : Nat → ℝ) (s : Bool × (Nat → ℝ)) (E : Nat → ℝ) (R : ℝ) (p : Polynomial ℝ)
    (h : SpokeData n g order lo hi x s E R p) (u : ℝ) (hu0 : 0 ≤ u) (hu1 : u ≤ 1) (hw : ∫ r in (if half then R / 2 else 0)..R, p.eval r * r ^ (n - 1) ≠ 0) :
    ∃ N, ∀ fuel, N ≤ fuel → ∃ t, spokeSample n half g order x E R u fuel = some t ∧ (if half then 1 / 2 else 0) ≤ t ∧ t ≤ 1 ∧
      |(∫ r in (if half then R / 2 else 0)..(t * R), p.eval r * r ^ (n - 1)) / (∫ r in (if half then R / 2 else 0)..R, p.eval r * r ^ (n - 1)) - u| < 1e-6 := by
  have hm : 2 ≤ atLeastOne order + 1 := by unfold atLeastOne; split <;> omega
  obtain ⟨c, e1, e2⟩ := spokeCoef_poly hm h.pos (by have := h.deg; omega) h.along h.far
  have ea : (if half then R / 2 else 0) = spokeFrom half R := by
    unfold spokeFrom
    split
    · ring
    · rfl
  rw [ea] at hw ⊢
  have hS : ∀ t, spokeSum n half c R t (atLeastOne order + 1) = some (∫ r in spokeFrom half R..(t * R), p.eval r * r ^ (n - 1)) := by
    intro t
    rw [spokeSum_poly half R t _ e2, poly_integral hn (m := atLeastOne order + 1) (by have := h.deg; omega)]
    congr 2
    funext j
    cases half
    · have : j + n ≠ 0 := by omega
      simp only [spokeFrom, Bool.false_eq_true, if_false, zero_pow this, mul_zero]
    · simp [spokeFrom]
  have hF : (fun t => (spokeSum n half c R t (atLeastOne order + 1)).getD 0) = fun t => ∫ r in spokeFrom half R..(t * R), p.eval r * r ^ (n - 1) := by
    funext t
    rw [hS]
    rfl
  have hcont : Continuous fun t => (∫ r in spokeFrom half R..(t * R), p.eval r * r ^ (n - 1)) / ∫ r in spokeFrom half R..R, p.eval r * r ^ (n - 1) := by
    refine Continuous.div_const ?_ _
    have e : (fun t => ∫ r in spokeFrom half R..(t * R), p.eval r * r ^ (n - 1)) =
        fun t : ℝ => ∑ j ∈ Finset.range (atLeastOne order + 1), p.coeff j * ((t * R) ^ (j + n) - spokeFrom half R ^ (j + n)) / ((j + n : Nat) : ℝ) := by
      funext t
      exact poly_integral hn (by have := h.deg; omega) _ _
    rw [e]
    fun_prop
  have huc := isCompact_Icc.uniformContinuousOn_of_continuous (hcont.continuousOn (s := Set.Icc (0 : ℝ) 1))
  rw [Metric.uniformContinuousOn_iff] at huc
  obtain ⟨δ, hδ, hd⟩ := huc 1e-6 (by norm_num)
  obtain ⟨k, hk⟩ := pow_unbounded_of_one_lt (1 / δ) (one_lt_two : (1 : ℝ) < 2)
  have hk' : 1 < δ * 2 ^ k := by
    rw [div_lt_iff₀ hδ] at hk
    linarith
  have hb : (0 : ℝ) ≤ (if half then 0.5 else 0) ∧ (if half then 0.5 else (0 : ℝ)) ≤ 1 / 2 ∧ (if half then 0.5 else (0 : ℝ)) = (if half then 1 / 2 else 0) ∧
      (if half then 0.5 else (0 : ℝ)) * R = spokeFrom half R := by
    cases half <;> norm_num [spokeFrom]
  refine ⟨k + 1, fun fuel hf => ?_⟩
  simp only [spokeSample, e1, hS 1, hF, one_mul]
  obtain ⟨t, t1, t2, t3, t4⟩ := spokeSearch_ends (F := fun t => ∫ r in spokeFrom half R..(t * R), p.eval r * r ^ (n - 1)) (u := u) (δ := δ) hw (a := 0) (b := 1)
    (fun s t h1 h2 h3 h4 h5 => hd s ⟨h1, h2⟩ t ⟨h3, h4⟩ h5) k (if half then 0.5 else 0) 1 hb.1 (by linarith) le_rfl
    (by rw [hb.2.2.2, intervalIntegral.integral_same, zero_div]; exact hu0)
    (by rw [one_mul, div_self hw]; exact hu1) (by linarith) fuel hf
  exact ⟨t, t1, by rw [← hb.2.2.1]; exact t2, t3, t4⟩

/-- **C115, finding.** If the integral along the selected spoke is zero the binary search never ends. -/
theorem C115_search_never_ends (F : ℝ → ℝ) (u : ℝ) : ∀ (fuel : Nat) (lo hi : ℝ), spokeSearch F 0 u fuel lo hi = none := by
  intro fuel
  induction fuel with
  | zero => intro lo hi; rfl
  | succ fuel ih =>
    intro lo hi
    simp only [spokeSearch]
    rw [if_neg fun h => h.1 rfl]
    split
    · exact ih _ _
    · exact ih _ _

/-! ## The ends of the spokes -/

theorem between_box {l h x v m k : ℝ} (h1 : l ≤ x) (h2 : x ≤ h) (h3 : l ≤ x + m * v) (h4 : x + m * v ≤ h) (hk : 0 ≤ k) (hm : k ≤ m) : l ≤ x + k * v ∧ x + k * v ≤ h := by
  rcases le_total 0 v with hv | hv <;> constructor <;> nlinarith

theorem boxClip_spec {lo hi x e : Nat → ℝ} : ∀ n, (∀ d, d < n → lo d ≤ x d ∧ x d ≤ hi d) →
    0 ≤ boxClip lo hi x e n ∧ boxClip lo hi x e n ≤ 1 ∧ (∀ d, d < n → lo d ≤ x d + boxClip lo hi x e n * (e d - x d) ∧ x d + boxClip lo hi x e n * (e d - x d) ≤ hi d) ∧
    (boxClip lo hi x e n = 1 ∨ ∃ d, d < n ∧ (x d + boxClip lo hi x e n * (e d - x d) = lo d ∨ x d + boxClip lo hi x e n * (e d - x d) = hi d)) := by
  intro n
  induction n with
  | zero => intro _; exact ⟨zero_le_one, le_rfl, fun d hd => absurd hd (by omega), Or.inl rfl⟩
  | succ n ih =>
    intro hb
    obtain ⟨i1, i2, i3, i4⟩ := ih fun d hd => hb d (by omega)
    obtain ⟨b1, b2⟩ := hb n (by omega)
    set m := boxClip lo hi x e n with hm
    -- a smaller factor `k` with coordinate `n` inside, and on the box if it is smaller
    have step : ∀ k, boxClip lo hi x e (n + 1) = k → 0 ≤ k → k ≤ m → (lo n ≤ x n + k * (e n - x n) ∧ x n + k * (e n - x n) ≤ hi n) →
        (k = m ∨ x n + k * (e n - x n) = lo n ∨ x n + k * (e n - x n) = hi n) →
        0 ≤ boxClip lo hi x e (n + 1) ∧ boxClip lo hi x e (n + 1) ≤ 1 ∧
        (∀ d, d < n + 1 → lo d ≤ x d + boxClip lo hi x e (n + 1) * (e d - x d) ∧ x d + boxClip lo hi x e (n + 1) * (e d - x d) ≤ hi d) ∧
        (boxClip lo hi x e (n + 1) = 1 ∨ ∃ d, d < n + 1 ∧ (x d + boxClip lo hi x e (n + 1) * (e d - x d) = lo d ∨ x d + boxClip lo hi x e (n + 1) * (e d - x d) = hi d)) := by
      intro k hk k0 k1 k2 k3
      rw [hk]
      refine ⟨k0, le_trans k1 i2, fun d hd => ?_, ?_⟩
      · rcases Nat.lt_succ_iff_lt_or_eq.1 hd with hd | rfl
        · exact between_box (hb d (by omega)).1 (hb d (by omega)).2 (i3 d hd).1 (i3 d hd).2 k0 k1
        · exact k2
      · rcases k3 with rfl | h
        · rcases i4 with h | ⟨d, hd, h⟩
          · exact Or.inl h
          · exact Or.inr ⟨d, by omega, h⟩
        · exact Or.inr ⟨n, by omega, h⟩
    by_cases h1 : e n < lo n
    · have h2 : ¬ e n > hi n := by linarith
      have hp : 0 < x n - e n := by linarith
      have hq : (x n - lo n) / (x n - e n) * (x n - e n) = x n - lo n := div_mul_cancel₀ _ hp.ne'
      have hq0 : 0 ≤ (x n - lo n) / (x n - e n) := div_nonneg (by linarith) hp.le
      refine step (min m ((x n - lo n) / (x n - e n))) (by simp only [boxClip, ← hm, if_pos h1, if_neg h2]) (le_min i1 hq0) (min_le_left _ _) ?_ ?_
      · have : min m ((x n - lo n) / (x n - e n)) * (x n - e n) ≤ x n - lo n := le_of_le_of_eq (mul_le_mul_of_nonneg_right (min_le_right _ _) hp.le) hq
        have h0 := mul_nonneg (le_min i1 hq0) hp.le
        constructor <;> linarith
      · rcases min_choice m ((x n - lo n) / (x n - e n)) with h | h
        · exact Or.inl h
        · rw [h]
          exact Or.inr (Or.inl (by linarith))
    · by_cases h2 : e n > hi n
      · have hp : 0 < e n - x n := by linarith
        have hq : (hi n - x n) / (e n - x n) * (e n - x n) = hi n - x n := div_mul_cancel₀ _ hp.ne'
        have hq0 : 0 ≤ (hi n - x n) / (e n - x n) := div_nonneg (by linarith) hp.le
        refine step (min m ((hi n - x n) / (e n - x n))) (by simp only [boxClip, ← hm, if_neg h1, if_pos h2]) (le_min i1 hq0) (min_le_left _ _) ?_ ?_
        · have : min m ((hi n - x n) / (e n - x n)) * (e n - x n) ≤ hi n - x n := le_of_le_of_eq (mul_le_mul_of_nonneg_right (min_le_right _ _) hp.le) hq
          have h0 := mul_nonneg (le_min i1 hq0) hp.le
          constructor <;> linarith
        · rcases min_choice m ((hi n - x n) / (e n - x n)) with h | h
          · exact Or.inl h
          · rw [h]
            exact Or.inr (Or.inr (by linarith))
      · refine step m (by simp only [boxClip, ← hm, if_neg h1, if_neg h2]) i1 le_rfl ?_ (Or.inl rfl)
        push Not at h1 h2
        constructor <;> nlinarith

/-- **C115, the ends at neighbours.** For a seed in the box, the spoke that is integrated along is the part of the spoke inside the box: it ends on the spoke, in the box, and at the end of the spoke or on
the boundary of the box; and its length is the distance. -/
theorem C115_spoke_end (n : Nat) (lo hi x e : Nat → ℝ) (hb : ∀ d, d < n → lo d ≤ x d ∧ x d ≤ hi d) :
    ∃ (y : Nat → ℝ) (R t : ℝ), spokeEnd n lo hi x false e = some (y, R) ∧ 0 ≤ t ∧ t ≤ 1 ∧ (∀ d, y d = x d + t * (e d - x d)) ∧ (∀ d, d < n → lo d ≤ y d ∧ y d ≤ hi d) ∧
      (y = e ∨ ∃ d, d < n ∧ (y d = lo d ∨ y d = hi d)) ∧ R = Real.sqrt (∑ d ∈ Finset.range n, (y d - x d) ^ 2) := by
  obtain ⟨h1, h2, h3, h4⟩ := boxClip_spec (lo := lo) (hi := hi) (x := x) (e := e) n hb
  have hy : (if boxClip lo hi x e n < 1 then fun d => x d + boxClip lo hi x e n * (e d - x d) else e) = fun d => x d + boxClip lo hi x e n * (e d - x d) := by
    by_cases h : boxClip lo hi x e n < 1
    · rw [if_pos h]
    · rw [if_neg h, le_antisymm h2 (not_lt.1 h)]
      funext d
      ring
  refine ⟨_, _, boxClip lo hi x e n, rfl, h1, h2, fun d => by rw [hy], ?_, ?_, ?_⟩
  · intro d hd
    rw [hy]
    exact h3 d hd
  · rw [hy]
    rcases h4 with h | h
    · left
      funext d
      rw [h]
      ring
    · exact Or.inr h
  · rw [hy]
    congr 1
    have : ∀ (f : Nat → ℝ) k, sumDim (fun d => f d * f d) k = ∑ d ∈ Finset.range k, f d ^ 2 := by
      intro f k
      induction k with
      | zero => rfl
      | succ k ih => rw [sumDim, ih, Finset.sum_range_succ]; ring
    exact this (fun d => x d + boxClip lo hi x e n * (e d - x d) - x d) n

/-- What the length to the boundary of the box is, for the first `n` coordinates. -/
def ExitAt (lo hi x u : Nat → ℝ) (n : Nat) (b : WithTop ℝ) : Prop :=
  (b = ⊤ ∧ ∀ d, d < n → |u d| ≤ 1e-10) ∨
    ∃ m : ℝ, b = (m : WithTop ℝ) ∧ 0 ≤ m ∧ (∀ d, d < n → 1e-10 < |u d| → lo d ≤ x d + m * u d ∧ x d + m * u d ≤ hi d) ∧
      ∃ d, d < n ∧ 1e-10 < |u d| ∧ (x d + m * u d = lo d ∨ x d + m * u d = hi d)

theorem boxExit_spec {lo hi x u : Nat → ℝ} : ∀ n, (∀ d, d < n → lo d ≤ x d ∧ x d ≤ hi d) → ExitAt lo hi x u n (boxExit lo hi x u n) := by
  intro n
  induction n with
  | zero => intro _; exact Or.inl ⟨rfl, fun d hd => absurd hd (by omega)⟩
  | succ n ih =>
    intro hb
    obtain ⟨b1, b2⟩ := hb n (by omega)
    have ih := ih fun d hd => hb d (by omega)
    have keep : boxExit lo hi x u (n + 1) = boxExit lo hi x u n → |u n| ≤ 1e-10 → ExitAt lo hi x u (n + 1) (boxExit lo hi x u (n + 1)) := fun he hu => by
      rw [he]
      rcases ih with ⟨h1, h2⟩ | ⟨m, h1, h2, h3, d, hd, h4⟩
      · refine Or.inl ⟨h1, fun d hd => ?_⟩
        rcases Nat.lt_succ_iff_lt_or_eq.1 hd with hd | rfl
        · exact h2 d hd
        · exact hu
      · refine Or.inr ⟨m, h1, h2, fun d hd hu' => ?_, d, by omega, h4⟩
        rcases Nat.lt_succ_iff_lt_or_eq.1 hd with hd | rfl
        · exact h3 d hd hu'
        · exact absurd hu (not_le.2 hu')
    -- a bound `q` from coordinate `n`
    have step : ∀ q : ℝ, boxExit lo hi x u (n + 1) = min (boxExit lo hi x u n) (q : WithTop ℝ) → 0 ≤ q → 1e-10 < |u n| → (x n + q * u n = lo n ∨ x n + q * u n = hi n) →
        (lo n ≤ x n + q * u n ∧ x n + q * u n ≤ hi n) → ExitAt lo hi x u (n + 1) (boxExit lo hi x u (n + 1)) := fun q he hq hu hq2 hq3 => by
      rw [he]
      rcases ih with ⟨h1, h2⟩ | ⟨m, h1, h2, h3, d, hd, h4⟩
      · refine Or.inr ⟨q, by rw [h1, min_eq_right le_top], hq, fun d hd hu' => ?_, n, by omega, hu, hq2⟩
        rcases Nat.lt_succ_iff_lt_or_eq.1 hd with hd | rfl
        · exact absurd (h2 d hd) (not_le.2 hu')
        · exact hq3
      · rcases le_total m q with hmq | hmq
        · refine Or.inr ⟨m, by rw [h1, min_eq_left (WithTop.coe_le_coe.2 hmq)], h2, fun d hd hu' => ?_, d, by omega, h4⟩
          rcases Nat.lt_succ_iff_lt_or_eq.1 hd with hd | rfl
          · exact h3 d hd hu'
          · exact between_box b1 b2 hq3.1 hq3.2 h2 hmq
        · refine Or.inr ⟨q, by rw [h1, min_eq_right (WithTop.coe_le_coe.2 hmq)], hq, fun d hd hu' => ?_, n, by omega, hu, hq2⟩
          rcases Nat.lt_succ_iff_lt_or_eq.1 hd with hd | rfl
          · exact between_box (hb d (by omega)).1 (hb d (by omega)).2 (h3 d hd hu').1 (h3 d hd hu').2 hq hmq
          · exact hq3
    by_cases h1 : u n > 1e-10
    · have hp : 0 < u n := lt_trans (by norm_num) h1
      have hq : (hi n - x n) / u n * u n = hi n - x n := div_mul_cancel₀ _ hp.ne'
      exact step _ (by simp only [boxExit]; rw [if_pos h1]) (div_nonneg (by linarith) hp.le) (lt_of_lt_of_le h1 (le_abs_self _)) (Or.inr (by linarith)) ⟨by linarith, by linarith⟩
    · by_cases h2 : u n < -1e-10
      · have hp : u n < 0 := lt_trans h2 (by norm_num)
        have hq : (lo n - x n) / u n * u n = lo n - x n := div_mul_cancel₀ _ hp.ne
        exact step _ (by simp only [boxExit]; rw [if_neg h1, if_pos h2]) (div_nonneg_of_nonpos (by linarith) hp.le) (by rw [abs_of_neg hp]; linarith) (Or.inl (by linarith)) ⟨by linarith, by linarith⟩
      · exact keep (by simp only [boxExit]; rw [if_neg h1, if_neg h2]) (abs_le.2 ⟨not_lt.1 h2, not_lt.1 h1⟩)

/-- **C115, the ends of open spokes.** A spoke that meets no neighbour is followed to the boundary of the box: for a seed in the box and a unit direction, the end is on the ray at the distance returned,
on the boundary of the box, and in the box up to 1E-10 of the length in the coordinates in which the direction is that small. -/
theorem C115_open_spoke_end (n : Nat) (hn : n < 10 ^ 20) (lo hi x u : Nat → ℝ) (hb : ∀ d, d < n → lo d ≤ x d ∧ x d ≤ hi d) (hu : ∑ d ∈ Finset.range n, u d ^ 2 = 1) :
    ∃ (y : Nat → ℝ) (R : ℝ), spokeEnd n lo hi x true u = some (y, R) ∧ 0 ≤ R ∧ (∀ d, y d = x d + R * u d) ∧ R = Real.sqrt (∑ d ∈ Finset.range n, (y d - x d) ^ 2) ∧
      (∀ d, d < n → lo d - 1e-10 * R ≤ y d ∧ y d ≤ hi d + 1e-10 * R) ∧ (∀ d, d < n → 1e-10 < |u d| → lo d ≤ y d ∧ y d ≤ hi d) ∧ ∃ d, d < n ∧ (y d = lo d ∨ y d = hi d) := by
  rcases boxExit_spec (u := u) n hb with ⟨_, h⟩ | ⟨m, h1, h2, h3, d, hd, _, h4⟩
  · exfalso
    have : ∑ d ∈ Finset.range n, u d ^ 2 ≤ ∑ d ∈ Finset.range n, (1e-20 : ℝ) := by
      refine Finset.sum_le_sum fun d hd => ?_
      have := abs_le.1 (h d (Finset.mem_range.1 hd))
      nlinarith
    rw [hu, Finset.sum_const, Finset.card_range, nsmul_eq_mul] at this
    have hn' : (n : ℝ) < 10 ^ 20 := by exact_mod_cast hn
    norm_num at this
    have : (n : ℝ) * (1 / 100000000000000000000) < 1 := by
      have h20 : (10 : ℝ) ^ 20 = 100000000000000000000 := by norm_num
      rw [h20] at hn'
      linarith
    linarith
  · have hR : ∑ d ∈ Finset.range n, (x d + m * u d - x d) ^ 2 = m ^ 2 := by
      have : ∀ d, (x d + m * u d - x d) ^ 2 = m ^ 2 * u d ^ 2 := fun d => by ring
      simp only [this]
      rw [← Finset.mul_sum, hu, mul_one]
    refine ⟨fun d => x d + m * u d, m, ?_, h2, fun d => rfl, by rw [hR, Real.sqrt_sq h2], fun d hd => ?_, h3, d, hd, h4⟩
    · simp only [spokeEnd, if_true, h1]
    · by_cases hc : 1e-10 < |u d|
      · have := h3 d hd hc
        have h0 : (0 : ℝ) ≤ 1e-10 * m := by positivity
        constructor <;> simp only <;> linarith [this.1, this.2]
      · have hc := abs_le.1 (not_lt.1 hc)
        have := hb d hd
        constructor <;> simp only <;> nlinarith [this.1, this.2, hc.1, hc.2]

/-! ## Order one, and a case -/

theorem far_two {R : ℝ} (hR : 1e-9 ≤ R) : ∀ j, j < 2 → ColumnFar 2 (powerMatrix 2 R) j := by
  intro j hj c
  interval_cases j
  · norm_num [residual, powerMatrix, Finset.sum_range_succ]
  · have e : residual 2 1 (powerMatrix 2 R) (fun i => powerMatrix 2 R i 1) c = c 0 ^ 2 + (c 0 - R) ^ 2 := by
      simp only [residual, powerMatrix, Finset.sum_range_succ, Finset.sum_range_zero]
      norm_num
    rw [e]
    nlinarith [sq_nonneg (2 * c 0 - R)]

/-- **C115, linear functions.** If the order of the cell is at most one and the function is linear, it is enough that the spokes are at least 1E-9 long. -/
theorem C115_linear (n : Nat) (a : Nat → ℝ) (b : ℝ) (order : Nat) (ho : order ≤ 1) (lo hi x : Nat → ℝ) (s : Bool × (Nat → ℝ)) (E : Nat → ℝ) (R : ℝ)
    (he : spokeEnd n lo hi x s.1 s.2 = some (E, R)) (hR : 1e-9 ≤ R) :
    SpokeData n (fun y => b + ∑ d ∈ Finset.range n, a d * y d) order lo hi x s E R
      (Polynomial.C (b + ∑ d ∈ Finset.range n, a d * x d) + Polynomial.C ((∑ d ∈ Finset.range n, a d * (E d - x d)) / R) * Polynomial.X) := by
  have h1 : atLeastOne order = 1 := by unfold atLeastOne; split <;> omega
  have hp : 0 < R := lt_of_lt_of_le (by norm_num) hR
  refine ⟨he, hp, ?_, fun r _ _ => ?_, ?_⟩
  · rw [h1]
    exact le_trans (Polynomial.natDegree_add_le _ _) (max_le (by rw [Polynomial.natDegree_C]; exact Nat.zero_le _) (le_trans (Polynomial.natDegree_C_mul_le _ _) Polynomial.natDegree_X_le))
  · simp only [Polynomial.eval_add, Polynomial.eval_C, Polynomial.eval_mul, Polynomial.eval_X]
    have : ∀ d, a d * (x d + r / R * (E d - x d)) = a d * x d + a d * (E d - x d) * (r / R) := fun d => by ring
    simp only [this]
    rw [Finset.sum_add_distrib, ← Finset.sum_mul]
    ring
  · rw [h1]
    exact far_two hR

/-- A case: the middle of the unit cube, an open spoke and one that ends at a neighbour outside of the cube, and the function `1 + y₀`. -/
example : ∃ (E : Bool × (Nat → ℝ) → Nat → ℝ) (R : Bool × (Nat → ℝ) → ℝ) (p : Bool × (Nat → ℝ) → Polynomial ℝ),
    ∀ s ∈ [(true, fun d : Nat => if d = 0 then (1 : ℝ) else 0), (false, fun d : Nat => if d = 1 then (3 / 2 : ℝ) else 1 / 2)],
      SpokeData 3 (fun y => 1 + ∑ d ∈ Finset.range 3, (if d = 0 then 1 else 0) * y d) 1 (fun _ => 0) (fun _ => 1) (fun _ => 1 / 2) s (E s) (R s) (p s) := by
  have key : ∀ s ∈ [(true, fun d : Nat => if d = 0 then (1 : ℝ) else 0), (false, fun d : Nat => if d = 1 then (3 / 2 : ℝ) else 1 / 2)],
      ∃ E R, spokeEnd 3 (fun _ => 0) (fun _ => 1) (fun _ => 1 / 2) s.1 s.2 = some (E, R) ∧ R = 1 / 2 := by
    intro s hs
    simp only [List.mem_cons, List.not_mem_nil, or_false] at hs
    rcases hs with rfl | rfl
    · refine ⟨fun d => 1 / 2 + 1 / 2 * (if d = 0 then (1 : ℝ) else 0), 1 / 2, ?_, rfl⟩
      have e : boxExit (fun _ => 0) (fun _ => 1) (fun _ => 1 / 2) (fun d : Nat => if d = 0 then (1 : ℝ) else 0) 3 = ((1 / 2 : ℝ) : WithTop ℝ) := by
        norm_num [boxExit]
      simp only [spokeEnd, if_true, e]
    · refine ⟨_, _, rfl, ?_⟩
      have e : boxClip (fun _ => 0) (fun _ => 1) (fun _ => 1 / 2) (fun d : Nat => if d = 1 then (3 / 2 : ℝ) else 1 / 2) 3 = 1 / 2 := by
        norm_num [boxClip]
      rw [e, if_pos (by norm_num)]
      rw [Real.sqrt_eq_iff_mul_self_eq (by norm_num [sumDim]) (by norm_num)]
      norm_num [sumDim]
  choose! E R h1 h2 using key
  exact ⟨E, R, _, fun s hs => C115_linear 3 _ 1 1 le_rfl _ _ _ s (E s) (R s) (h1 s hs) (by rw [h2 s hs]; norm_num)⟩

end VoroCrust
