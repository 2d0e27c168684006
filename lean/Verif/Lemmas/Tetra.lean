import Mathlib.MeasureTheory.Measure.Lebesgue.EqHaar
import Mathlib.MeasureTheory.Integral.IntervalIntegral.FundThmCalculus
import Mathlib.Analysis.SpecialFunctions.Integrals.Basic

/-!
# The volume of a tetrahedron

`volume` is Lebesgue measure on `Fin 3 → ℝ`.
-/

namespace VoroCrust

open MeasureTheory

/-- The corner of the first octant cut off where the coordinates sum to `s`. -/
def cutOff (n : Nat) (s : ℝ) : Set (Fin n → ℝ) := {x | (∀ i, 0 ≤ x i) ∧ ∑ i, x i ≤ s}

theorem cutOff_closed (n : Nat) (s : ℝ) : IsClosed (cutOff n s) := by
  have h : cutOff n s = (⋂ i, {x : Fin n → ℝ | 0 ≤ x i}) ∩ {x | ∑ i, x i ≤ s} := by
    ext x
    simp [cutOff]
  rw [h]
  refine IsClosed.inter (isClosed_iInter fun i => isClosed_le continuous_const (continuous_apply i)) (isClosed_le ?_ continuous_const)
  exact continuous_finsetSum _ fun i _ => continuous_apply i

theorem cutOff_neg {n : Nat} {s : ℝ} (hs : s < 0) : cutOff n s = ∅ := by
  ext x
  simp only [cutOff, Set.mem_ofPred_eq, Set.mem_empty_iff_false, iff_false, not_and, not_le]
  intro h
  exact lt_of_lt_of_le hs (Finset.sum_nonneg fun i _ => h i)

theorem cutOff_succ (n : Nat) (s : ℝ) : volume (cutOff (n + 1) s) = ∫⁻ t in Set.Icc 0 s, volume (cutOff n (s - t)) := by
  have hp := volume_preserving_piFinSuccAbove (fun _ : Fin (n + 1) => ℝ) 0
  have hset : cutOff (n + 1) s = MeasurableEquiv.piFinSuccAbove (fun _ : Fin (n + 1) => ℝ) 0 ⁻¹' {w : ℝ × (Fin n → ℝ) | 0 ≤ w.1 ∧ w.2 ∈ cutOff n (s - w.1)} := by
    ext x
    simp only [cutOff, Set.mem_ofPred_eq, Set.mem_preimage, MeasurableEquiv.piFinSuccAbove_apply, Fin.insertNthEquiv_symm_apply, Fin.removeNth, Fin.succAbove_zero]
    rw [Fin.forall_fin_succ, Fin.sum_univ_succ, le_sub_iff_add_le']
    tauto
  have hm : MeasurableSet {w : ℝ × (Fin n → ℝ) | 0 ≤ w.1 ∧ w.2 ∈ cutOff n (s - w.1)} := by
    refine IsClosed.measurableSet ?_
    have : {w : ℝ × (Fin n → ℝ) | 0 ≤ w.1 ∧ w.2 ∈ cutOff n (s - w.1)} = {w | 0 ≤ w.1} ∩ ((⋂ i, {w | 0 ≤ w.2 i}) ∩ {w | ∑ i, w.2 i ≤ s - w.1}) := by
      ext w
      simp [cutOff]
    rw [this]
    refine (isClosed_le continuous_const continuous_fst).inter (IsClosed.inter (isClosed_iInter fun i => isClosed_le continuous_const ((continuous_apply i).comp continuous_snd)) (isClosed_le ?_ ?_))
    · exact continuous_finsetSum _ fun i _ => (continuous_apply i).comp continuous_snd
    · exact continuous_const.sub continuous_fst
  rw [hset, hp.measure_preimage hm.nullMeasurableSet, Measure.volume_eq_prod, Measure.prod_apply hm, ← lintegral_indicator measurableSet_Icc]
  refine lintegral_congr fun t => ?_
  by_cases ht : t ∈ Set.Icc 0 s
  · rw [Set.indicator_of_mem ht]
    congr 1
    ext x
    simp [ht.1]
  · rw [Set.indicator_of_notMem ht]
    convert measure_empty (μ := (volume : Measure (Fin n → ℝ)))
    ext x
    simp only [Set.mem_preimage, Set.mem_ofPred_eq, Set.mem_empty_iff_false, iff_false, not_and]
    intro h0
    rw [cutOff_neg]
    · simp
    · rw [Set.mem_Icc, not_and, not_le] at ht
      linarith [ht h0]

/-- The volume of the corner. -/
theorem cutOff_volume (n : Nat) : ∀ s : ℝ, 0 ≤ s → volume (cutOff n s) = ENNReal.ofReal (s ^ n / n.factorial) := by
  induction n with
  | zero =>
    intro s hs
    have : cutOff 0 s = Set.univ := by
      ext x
      simp [cutOff, hs]
    rw [this]
    simp [volume_pi]
  | succ n ih =>
    intro s hs
    rw [cutOff_succ]
    have h1 : ∫⁻ t in Set.Icc 0 s, volume (cutOff n (s - t)) = ∫⁻ t in Set.Icc 0 s, ENNReal.ofReal ((s - t) ^ n / n.factorial) :=
      setLIntegral_congr_fun measurableSet_Icc fun t ht => ih _ (by linarith [ht.2])
    have hc : Continuous fun t : ℝ => (s - t) ^ n / (n.factorial : ℝ) := by fun_prop
    rw [h1, ← ofReal_integral_eq_lintegral_ofReal (hc.integrableOn_Icc) (by
      refine (ae_restrict_iff' measurableSet_Icc).2 (Filter.Eventually.of_forall fun t ht => ?_)
      exact div_nonneg (pow_nonneg (by linarith [ht.2]) _) (Nat.cast_nonneg _)), integral_Icc_eq_integral_Ioc, ← intervalIntegral.integral_of_le hs]
    congr 1
    rw [intervalIntegral.integral_div, intervalIntegral.integral_comp_sub_left (fun t => t ^ n) s, sub_self, sub_zero, integral_pow, Nat.factorial_succ]
    push_cast
    have h2 : (n : ℝ) + 1 ≠ 0 := by positivity
    have h3 : (n.factorial : ℝ) ≠ 0 := by positivity
    field_simp
    simp

/-- The linear map that takes the unit vectors to `a`, `b` and `c`. -/
def frame (a b c : Fin 3 → ℝ) : (Fin 3 → ℝ) →ₗ[ℝ] (Fin 3 → ℝ) := Matrix.toLin' (Matrix.of fun i j => ![a i, b i, c i] j)

theorem frame_apply (a b c x : Fin 3 → ℝ) : frame a b c x = x 0 • a + x 1 • b + x 2 • c := by
  ext i
  simp [frame, Matrix.toLin'_apply, Matrix.mulVec, dotProduct, Fin.sum_univ_three]
  ring

/-- The determinant of three vectors. -/
def det3 (a b c : Fin 3 → ℝ) : ℝ := a 0 * (b 1 * c 2 - b 2 * c 1) + a 1 * (b 2 * c 0 - b 0 * c 2) + a 2 * (b 0 * c 1 - b 1 * c 0)

theorem frame_det (a b c : Fin 3 → ℝ) : LinearMap.det (frame a b c) = det3 a b c := by
  unfold frame
  rw [LinearMap.det_toLin', Matrix.det_fin_three]
  simp [det3]
  ring

/-- The tetrahedron with corners `p`, `a`, `b`, `c`. -/
def tetra (p a b c : Fin 3 → ℝ) : Set (Fin 3 → ℝ) := {z | ∃ x y w : ℝ, 0 ≤ x ∧ 0 ≤ y ∧ 0 ≤ w ∧ x + y + w ≤ 1 ∧ ∀ k, z k = p k + x * (a k - p k) + y * (b k - p k) + w * (c k - p k)}

theorem tetra_eq (p a b c : Fin 3 → ℝ) : tetra p a b c = (fun z => p + z) '' (frame (a - p) (b - p) (c - p) '' cutOff 3 1) := by
  ext z
  simp only [tetra, Set.mem_ofPred_eq, Set.mem_image, cutOff]
  constructor
  · rintro ⟨x, y, w, hx, hy, hw, hs, hz⟩
    refine ⟨_, ⟨![x, y, w], ⟨fun i => ?_, ?_⟩, rfl⟩, ?_⟩
    · fin_cases i <;> simpa
    · simpa [Fin.sum_univ_three] using hs
    · rw [frame_apply]
      ext k
      rw [hz k]
      simp
      ring
  · rintro ⟨_, ⟨u, ⟨h0, hs⟩, rfl⟩, rfl⟩
    refine ⟨u 0, u 1, u 2, h0 0, h0 1, h0 2, by simpa [Fin.sum_univ_three] using hs, fun k => ?_⟩
    rw [frame_apply]
    simp
    ring

/-- **The volume of a tetrahedron.** -/
theorem tetra_volume (p a b c : Fin 3 → ℝ) : volume (tetra p a b c) = ENNReal.ofReal (|det3 (a - p) (b - p) (c - p)| / 6) := by
  rw [tetra_eq, Set.image_add_left, measure_preimage_add, Measure.addHaar_image_linearMap, frame_det, cutOff_volume 3 1 zero_le_one, ← ENNReal.ofReal_mul (abs_nonneg _)]
  congr 1
  norm_num [Nat.factorial]
  ring

theorem tetra_measurable (p a b c : Fin 3 → ℝ) : NullMeasurableSet (tetra p a b c) volume := by
  have hb : Bornology.IsBounded (cutOff 3 1) := by
    refine (Metric.isBounded_Icc (0 : Fin 3 → ℝ) 1).subset fun x hx => ?_
    rw [Set.mem_Icc, Pi.le_def, Pi.le_def]
    refine ⟨hx.1, fun i => le_trans ?_ hx.2⟩
    exact Finset.single_le_sum (f := x) (fun j _ => hx.1 j) (Finset.mem_univ i)
  have hc : IsCompact (cutOff 3 1) := Metric.isCompact_of_isClosed_isBounded (cutOff_closed 3 1) hb
  rw [tetra_eq]
  exact ((hc.image (LinearMap.continuous_of_finiteDimensional _)).image (by fun_prop)).measurableSet.nullMeasurableSet

/-- The plane through a point with two directions has no volume. -/
theorem flat_null (p a b : Fin 3 → ℝ) : volume {z : Fin 3 → ℝ | ∃ x y : ℝ, ∀ k, z k = p k + x * (a k - p k) + y * (b k - p k)} = 0 := by
  have h : {z : Fin 3 → ℝ | ∃ x y : ℝ, ∀ k, z k = p k + x * (a k - p k) + y * (b k - p k)} ⊆ (fun z => p + z) '' (frame (a - p) (b - p) 0 '' Set.univ) := by
    rintro z ⟨x, y, hz⟩
    refine ⟨_, ⟨![x, y, 0], trivial, rfl⟩, ?_⟩
    rw [frame_apply]
    ext k
    rw [hz k]
    simp
    ring
  refine measure_mono_null h ?_
  rw [Set.image_add_left, measure_preimage_add, Measure.addHaar_image_linearMap, frame_det]
  simp [det3]

/-- The zeros of an affine function that is not constant have no volume. -/
theorem hyperplane_null (n : Fin 3 → ℝ) (c : ℝ) (hn : n ≠ 0) : volume {z : Fin 3 → ℝ | n 0 * z 0 + n 1 * z 1 + n 2 * z 2 = c} = 0 := by
  have hd : n 0 ^ 2 + n 1 ^ 2 + n 2 ^ 2 ≠ 0 := by
    intro h
    apply hn
    ext k
    have h0 : n 0 = 0 := by nlinarith [sq_nonneg (n 0), sq_nonneg (n 1), sq_nonneg (n 2)]
    have h1 : n 1 = 0 := by nlinarith [sq_nonneg (n 0), sq_nonneg (n 1), sq_nonneg (n 2)]
    have h2 : n 2 = 0 := by nlinarith [sq_nonneg (n 0), sq_nonneg (n 1), sq_nonneg (n 2)]
    fin_cases k <;> simpa
  set A : AffineSubspace ℝ (Fin 3 → ℝ) :=
    { carrier := {z : Fin 3 → ℝ | n 0 * z 0 + n 1 * z 1 + n 2 * z 2 = c}
      smul_vsub_vadd_mem' := by
        intro r p1 p2 p3 h1 h2 h3
        simp only [Set.mem_ofPred_eq, vsub_eq_sub, vadd_eq_add, Pi.add_apply, Pi.smul_apply, Pi.sub_apply, smul_eq_mul] at h1 h2 h3 ⊢
        linear_combination r * h1 - r * h2 + h3 } with hA
  have : A ≠ ⊤ := by
    intro htop
    have m0 : (0 : Fin 3 → ℝ) ∈ A := by rw [htop]; trivial
    have m1 : n ∈ A := by rw [htop]; trivial
    have e0 : n 0 * (0 : ℝ) + n 1 * 0 + n 2 * 0 = c := m0
    have e1 : n 0 * n 0 + n 1 * n 1 + n 2 * n 2 = c := m1
    apply hd
    nlinarith
  exact Measure.addHaar_affineSubspace volume A this

end VoroCrust
