import Verif.Model.LeastSquares
import Mathlib.Algebra.BigOperators.Intervals
import Mathlib.Algebra.Order.BigOperators.Ring.Finset
import Mathlib.Tactic.Linarith
import Mathlib.Tactic.FieldSimp
import Mathlib.Tactic.Ring
import Mathlib.Tactic.IntervalCases

/-! # Property C95: least squares -/

namespace VoroCrust

/-! ## Specification -/

/-- The squared length of `A y - b` for a matrix with `n` rows and `m` columns. -/
def residual (n m : Nat) (A : Nat → Nat → ℝ) (b y : Nat → ℝ) : ℝ := ∑ i ∈ Finset.range n, (∑ j ∈ Finset.range m, A i j * y j - b i) ^ 2

/-- Column `k` is more than `1e-10` away from all combinations of the columns before it. -/
def ColumnFar (n : Nat) (A : Nat → Nat → ℝ) (k : Nat) : Prop := ∀ c, (1e-10 : ℝ) ^ 2 < residual n k A (fun i => A i k) c

/-- Column `k` is a combination of the columns before it. -/
def ColumnIn (n : Nat) (A : Nat → Nat → ℝ) (k : Nat) : Prop := ∃ c, residual n k A (fun i => A i k) c = 0

/-! ## Numbers -/

theorem dsum_some (f : Nat → Dbl) (g : Nat → ℝ) (k m : Nat) (h : ∀ l, l < m → f (k + l) = some (g (k + l))) : dsum f k m = some (∑ l ∈ Finset.range m, g (k + l)) := by
  induction m with
  | zero => rfl
  | succ m ih =>
    rw [dsum, ih fun l hl => h l (by omega), h m (by omega), Finset.sum_range_succ]
    rfl

theorem dsum_Ico (f : Nat → Dbl) (g : Nat → ℝ) {k n : Nat} (h : ∀ i, k ≤ i → i < n → f i = some (g i)) : dsum f k (n - k) = some (∑ i ∈ Finset.Ico k n, g i) := by
  rw [dsum_some f g k (n - k) fun l hl => h _ (by omega) (by omega), Finset.sum_Ico_eq_sum_range]

theorem dmul_some (a b : ℝ) : dmul (some a) (some b) = some (a * b) := rfl

theorem dadd_some (a b : ℝ) : dadd (some a) (some b) = some (a + b) := rfl

theorem dsub_some (a b : ℝ) : dsub (some a) (some b) = some (a - b) := rfl

theorem dgt_some (a t : ℝ) : dgt (some a) t ↔ t < a := by
  constructor
  · rintro ⟨v, e, h⟩; rw [Option.some.inj e]; exact h
  · exact fun h => ⟨a, rfl, h⟩

theorem dgt_none (t : ℝ) : ¬ dgt none t := by rintro ⟨v, e, -⟩; simp at e

/-! ## One reflection -/

/-- The reflection with the unit vector `v`, of the entries from `k`. -/
def reflect (n k : Nat) (v z : Nat → ℝ) (i : Nat) : ℝ := if k ≤ i ∧ i < n then z i - 2 * v i * ∑ l ∈ Finset.Ico k n, v l * z l else z i

theorem sum_split {k n : Nat} (h : k ≤ n) (f : Nat → ℝ) : ∑ i ∈ Finset.range n, f i = ∑ i ∈ Finset.range k, f i + ∑ i ∈ Finset.Ico k n, f i := (Finset.sum_range_add_sum_Ico f h).symm

theorem reflect_sq {n k : Nat} (hk : k ≤ n) {v : Nat → ℝ} (hv : ∑ l ∈ Finset.Ico k n, v l ^ 2 = 1) (z : Nat → ℝ) : ∑ i ∈ Finset.range n, reflect n k v z i ^ 2 = ∑ i ∈ Finset.range n, z i ^ 2 := by
  rw [sum_split hk, sum_split hk]
  congr 1
  · refine Finset.sum_congr rfl fun i hi => ?_
    unfold reflect
    rw [if_neg (by have := Finset.mem_range.1 hi; omega)]
  · set s := ∑ l ∈ Finset.Ico k n, v l * z l with hs
    have : ∀ i ∈ Finset.Ico k n, reflect n k v z i ^ 2 = z i ^ 2 - 4 * s * (v i * z i) + 4 * s ^ 2 * v i ^ 2 := fun i hi => by
      unfold reflect
      rw [if_pos (Finset.mem_Ico.1 hi)]
      ring
    rw [Finset.sum_congr rfl this, Finset.sum_add_distrib, Finset.sum_sub_distrib, ← Finset.mul_sum, ← Finset.mul_sum, hv, ← hs]
    ring

theorem reflect_sum {n k : Nat} {v : Nat → ℝ} (m : Nat) (M : Nat → Nat → ℝ) (y : Nat → ℝ) (i : Nat) :
    ∑ j ∈ Finset.range m, reflect n k v (fun i => M i j) i * y j = reflect n k v (fun i => ∑ j ∈ Finset.range m, M i j * y j) i := by
  unfold reflect
  by_cases h : k ≤ i ∧ i < n
  · rw [if_pos h]
    have : ∀ j ∈ Finset.range m, (if k ≤ i ∧ i < n then M i j - 2 * v i * ∑ l ∈ Finset.Ico k n, v l * M l j else M i j) * y j =
        M i j * y j - 2 * v i * ∑ l ∈ Finset.Ico k n, v l * (M l j * y j) := fun j _ => by
      rw [if_pos h, sub_mul, mul_assoc (2 * v i), Finset.sum_mul]
      congr 2
      exact Finset.sum_congr rfl fun l _ => by ring
    rw [Finset.sum_congr rfl this, Finset.sum_sub_distrib, ← Finset.mul_sum, Finset.sum_comm]
    congr 2
    exact Finset.sum_congr rfl fun l _ => by rw [Finset.mul_sum]
  · rw [if_neg h]
    exact Finset.sum_congr rfl fun j _ => by rw [if_neg h]

theorem reflect_zero {n k : Nat} {v z : Nat → ℝ} (h : ∀ l, k ≤ l → l < n → z l = 0) (i : Nat) : reflect n k v z i = z i := by
  unfold reflect
  by_cases hi : k ≤ i ∧ i < n
  · rw [if_pos hi, Finset.sum_eq_zero fun l hl => by rw [h l (Finset.mem_Ico.1 hl).1 (Finset.mem_Ico.1 hl).2, mul_zero], mul_zero, sub_zero]
  · rw [if_neg hi]

/-! ## The vector of the reflection -/

/-- `alpha`. -/
noncomputable def alphaR (n k : Nat) (x : Nat → ℝ) : ℝ := if 0 < x k then -Real.sqrt (∑ i ∈ Finset.Ico k n, x i ^ 2) else Real.sqrt (∑ i ∈ Finset.Ico k n, x i ^ 2)

noncomputable def vecR (n k : Nat) (x : Nat → ℝ) (i : Nat) : ℝ := if i = k then x k - alphaR n k x else x i

noncomputable def normR (n k : Nat) (x : Nat → ℝ) : ℝ := Real.sqrt (∑ i ∈ Finset.Ico k n, vecR n k x i ^ 2)

theorem alphaR_sq (n k : Nat) (x : Nat → ℝ) : alphaR n k x ^ 2 = ∑ i ∈ Finset.Ico k n, x i ^ 2 := by
  have h : 0 ≤ ∑ i ∈ Finset.Ico k n, x i ^ 2 := Finset.sum_nonneg fun i _ => sq_nonneg _
  unfold alphaR
  split_ifs
  · rw [neg_sq, Real.sq_sqrt h]
  · rw [Real.sq_sqrt h]

theorem alphaR_sign (n k : Nat) (x : Nat → ℝ) : x k * alphaR n k x ≤ 0 := by
  have h := Real.sqrt_nonneg (∑ i ∈ Finset.Ico k n, x i ^ 2)
  unfold alphaR
  split_ifs with hx
  · nlinarith
  · nlinarith

theorem vec_sums {n k : Nat} (hk : k < n) (x : Nat → ℝ) :
    ∑ i ∈ Finset.Ico k n, vecR n k x i ^ 2 = 2 * (alphaR n k x ^ 2 - x k * alphaR n k x) ∧ ∑ i ∈ Finset.Ico k n, vecR n k x i * x i = alphaR n k x ^ 2 - x k * alphaR n k x := by
  have hs := alphaR_sq n k x
  rw [Finset.sum_eq_sum_Ico_succ_bot hk] at hs
  rw [Finset.sum_eq_sum_Ico_succ_bot hk, Finset.sum_eq_sum_Ico_succ_bot hk]
  have hv : ∀ i ∈ Finset.Ico (k + 1) n, vecR n k x i = x i := fun i hi => by
    unfold vecR; rw [if_neg (by have := Finset.mem_Ico.1 hi; omega)]
  rw [Finset.sum_congr rfl fun i hi => by rw [hv i hi], Finset.sum_congr rfl fun i hi => show vecR n k x i * x i = x i ^ 2 by rw [hv i hi]; ring]
  have hk' : vecR n k x k = x k - alphaR n k x := if_pos rfl
  rw [hk']
  constructor <;> nlinarith

theorem norm_pos {n k : Nat} (hk : k < n) {x : Nat → ℝ} (h : 0 < ∑ i ∈ Finset.Ico k n, x i ^ 2) : 0 < normR n k x ∧ normR n k x ^ 2 = 2 * (alphaR n k x ^ 2 - x k * alphaR n k x) := by
  have h1 := (vec_sums hk x).1
  have h2 := alphaR_sq n k x
  have h3 := alphaR_sign n k x
  have hp : 0 < ∑ i ∈ Finset.Ico k n, vecR n k x i ^ 2 := by rw [h1]; nlinarith
  exact ⟨Real.sqrt_pos.2 hp, by rw [normR, Real.sq_sqrt hp.le, h1]⟩

/-- The unit vector. -/
noncomputable def unitR (n k : Nat) (x : Nat → ℝ) (i : Nat) : ℝ := vecR n k x i / normR n k x

theorem unitR_sq {n k : Nat} (hk : k < n) {x : Nat → ℝ} (h : 0 < ∑ i ∈ Finset.Ico k n, x i ^ 2) : ∑ l ∈ Finset.Ico k n, unitR n k x l ^ 2 = 1 := by
  obtain ⟨h1, h2⟩ := norm_pos hk h
  have : ∀ l ∈ Finset.Ico k n, unitR n k x l ^ 2 = vecR n k x l ^ 2 * (1 / normR n k x ^ 2) := fun l _ => by unfold unitR; field_simp
  rw [Finset.sum_congr rfl this, ← Finset.sum_mul, (vec_sums hk x).1, ← h2]
  field_simp

/-- The reflection turns the column into a multiple of the unit vector `k`. -/
theorem reflect_column {n k : Nat} (hk : k < n) {x : Nat → ℝ} (h : 0 < ∑ i ∈ Finset.Ico k n, x i ^ 2) : reflect n k (unitR n k x) x k = alphaR n k x ∧
    ∀ i, k < i → i < n → reflect n k (unitR n k x) x i = 0 := by
  obtain ⟨h1, h2⟩ := norm_pos hk h
  have key : ∀ i, k ≤ i → i < n → reflect n k (unitR n k x) x i = x i - vecR n k x i := fun i hi hn => by
    unfold reflect
    rw [if_pos ⟨hi, hn⟩]
    have : ∀ l ∈ Finset.Ico k n, unitR n k x l * x l = vecR n k x l * x l * (1 / normR n k x) := fun l _ => by unfold unitR; field_simp
    rw [Finset.sum_congr rfl this, ← Finset.sum_mul, (vec_sums hk x).2, show alphaR n k x ^ 2 - x k * alphaR n k x = normR n k x ^ 2 / 2 by linarith]
    unfold unitR
    field_simp
  refine ⟨?_, fun i hi hn => ?_⟩
  · rw [key k le_rfl hk, show vecR n k x k = x k - alphaR n k x from if_pos rfl]; ring
  · rw [key i hi.le hn, show vecR n k x i = x i from if_neg (by omega)]; ring

/-! ## One step -/

/-- Numbers only. -/
def realState (Q R : Nat → Nat → ℝ) : QrState := ⟨fun i j => some (Q i j), fun i j => some (R i j)⟩

theorem hhAlpha_some {n k : Nat} (R : Nat → Nat → ℝ) : hhAlpha n k (fun i j => some (R i j)) = some (alphaR n k fun i => R i k) := by
  unfold hhAlpha alphaR
  have e : dsum (fun i => dmul ((fun i j => some (R i j)) i k) ((fun i j => some (R i j)) i k)) k (n - k) = some (∑ i ∈ Finset.Ico k n, R i k * R i k) := dsum_Ico _ _ fun i _ _ => rfl
  rw [e]
  simp only [dgt_some, dsqrt, Option.map_some]
  rw [Finset.sum_congr rfl fun i _ => (sq (R i k)).symm]
  split_ifs <;> rfl

theorem hhVec_some {n k : Nat} (R : Nat → Nat → ℝ) (i : Nat) : hhVec n k (fun i j => some (R i j)) i = some (vecR n k (fun i => R i k) i) := by
  unfold hhVec vecR
  rw [hhAlpha_some]
  split_ifs <;> rfl

theorem hhUnit_some {n k : Nat} (hk : k < n) (R : Nat → Nat → ℝ) (h : 0 < ∑ i ∈ Finset.Ico k n, R i k ^ 2) (i : Nat) :
    hhUnit n k (fun i j => some (R i j)) i = some (unitR n k (fun i => R i k) i) := by
  unfold hhUnit
  rw [hhVec_some, dsum_Ico _ (fun i => vecR n k (fun i => R i k) i ^ 2) fun i _ _ => by rw [hhVec_some, dmul_some, sq]]
  show ddiv (some _) (some (normR n k fun i => R i k)) = _
  unfold ddiv
  simp only
  rw [if_neg (norm_pos hk h).1.ne']
  rfl

theorem hhStep_some {n m k : Nat} (hk : k < n) (Q R : Nat → Nat → ℝ) (h : 0 < ∑ i ∈ Finset.Ico k n, R i k ^ 2) :
    hhStep n m k (realState Q R) = realState (fun i j => if j < n then reflect n k (unitR n k fun i => R i k) (fun i => Q i j) i else Q i j)
      (fun i j => if k ≤ j ∧ j < m then reflect n k (unitR n k fun i => R i k) (fun i => R i j) i else R i j) := by
  unfold hhStep realState
  congr 1
  · funext i j
    rw [dsum_Ico _ (fun l => unitR n k (fun i => R i k) l * Q l j) fun i _ _ => by rw [hhUnit_some hk R h, dmul_some], hhUnit_some hk R h]
    simp only [reflect]
    by_cases hj : j < n
    · by_cases hi : k ≤ i ∧ i < n
      · rw [if_pos ⟨hi.1, hi.2, hj⟩, if_pos hj, if_pos hi, dmul_some, dmul_some, dadd_some]; congr 1; ring
      · rw [if_neg (by tauto), if_pos hj, if_neg hi]
    · rw [if_neg (by tauto), if_neg hj]
  · funext i j
    rw [dsum_Ico _ (fun l => unitR n k (fun i => R i k) l * R l j) fun i _ _ => by rw [hhUnit_some hk R h, dmul_some], hhUnit_some hk R h]
    simp only [reflect]
    by_cases hj : k ≤ j ∧ j < m
    · by_cases hi : k ≤ i ∧ i < n
      · rw [if_pos ⟨hi.1, hi.2, hj⟩, if_pos hj, if_pos hi, dmul_some, dmul_some, dsub_some]
      · rw [if_neg (by tauto), if_pos hj, if_neg hi]
    · rw [if_neg (by tauto), if_neg hj]

/-- After `k` steps: `Q` keeps lengths, `Q A = R`, the first `k` columns of `R` are zero below the diagonal, and their diagonal entries are not small. -/
structure QrOk (A : Nat → Nat → ℝ) (n m k : Nat) (Q R : Nat → Nat → ℝ) : Prop where
  iso : ∀ y : Nat → ℝ, ∑ i ∈ Finset.range n, (∑ j ∈ Finset.range n, Q i j * y j) ^ 2 = ∑ i ∈ Finset.range n, y i ^ 2
  prod : ∀ i, i < n → ∀ j, j < m → ∑ a ∈ Finset.range n, Q i a * A a j = R i j
  tri : ∀ i j, i < n → j < k → j < i → R i j = 0
  diag : ∀ j, j < k → 1e-10 < |R j j|

theorem QrOk.start (A : Nat → Nat → ℝ) (n m : Nat) : QrOk A n m 0 (fun i j => if i = j then 1 else 0) A := by
  refine ⟨fun y => Finset.sum_congr rfl fun i hi => ?_, fun i hi j hj => ?_, fun i j _ h => absurd h (by omega), fun j h => absurd h (by omega)⟩
  · simp only [ite_mul, one_mul, zero_mul, Finset.sum_ite_eq, if_pos hi]
  · simp only [ite_mul, one_mul, zero_mul, Finset.sum_ite_eq, if_pos (Finset.mem_range.2 hi)]

/-- The squared length of `A y - b` after the rotation. -/
theorem QrOk.residual {A : Nat → Nat → ℝ} {n m k : Nat} {Q R : Nat → Nat → ℝ} (h : QrOk A n m k Q R) {p : Nat} (hp : p ≤ m) (b y : Nat → ℝ) :
    residual n p A b y = ∑ i ∈ Finset.range n, (∑ j ∈ Finset.range p, R i j * y j - ∑ a ∈ Finset.range n, Q i a * b a) ^ 2 := by
  unfold VoroCrust.residual
  rw [← h.iso]
  refine Finset.sum_congr rfl fun i hi => ?_
  congr 1
  have : ∀ a ∈ Finset.range n, Q i a * (∑ j ∈ Finset.range p, A a j * y j - b a) = (∑ j ∈ Finset.range p, Q i a * A a j * y j) - Q i a * b a := fun a _ => by
    rw [mul_sub, Finset.mul_sum]
    congr 1
    exact Finset.sum_congr rfl fun j _ => by ring
  rw [Finset.sum_congr rfl this, Finset.sum_sub_distrib, Finset.sum_comm]
  congr 1
  refine Finset.sum_congr rfl fun j hj => ?_
  rw [← Finset.sum_mul, h.prod i (Finset.mem_range.1 hi) j (by have := Finset.mem_range.1 hj; omega)]

theorem QrOk.column {A : Nat → Nat → ℝ} {n m k : Nat} {Q R : Nat → Nat → ℝ} (h : QrOk A n m k Q R) (hk : k < m) (hm : m ≤ n) (c : Nat → ℝ) :
    VoroCrust.residual n k A (fun i => A i k) c = ∑ i ∈ Finset.range k, (∑ j ∈ Finset.range k, R i j * c j - R i k) ^ 2 + ∑ i ∈ Finset.Ico k n, R i k ^ 2 := by
  rw [h.residual hk.le, sum_split (show k ≤ n by omega)]
  congr 1
  · refine Finset.sum_congr rfl fun i hi => ?_
    rw [h.prod i (by have := Finset.mem_range.1 hi; omega) k hk]
  · refine Finset.sum_congr rfl fun i hi => ?_
    have hi := Finset.mem_Ico.1 hi
    rw [h.prod i hi.2 k hk, Finset.sum_eq_zero fun j hj => by
      have hj := Finset.mem_range.1 hj
      rw [h.tri i j hi.2 hj (by omega), zero_mul]]
    ring

theorem triangular_solve (R : Nat → Nat → ℝ) : ∀ (k : Nat) (t : Nat → ℝ), (∀ i j, i < k → j < i → R i j = 0) → (∀ j, j < k → R j j ≠ 0) →
    ∃ c : Nat → ℝ, ∀ i, i < k → ∑ j ∈ Finset.range k, R i j * c j = t i := by
  intro k
  induction k with
  | zero => intro t _ _; exact ⟨fun _ => 0, fun i hi => absurd hi (by omega)⟩
  | succ k ih =>
    intro t h1 h2
    set z := t k / R k k with hz
    obtain ⟨c, hc⟩ := ih (fun i => t i - R i k * z) (fun i j hi hj => h1 i j (by omega) hj) fun j hj => h2 j (by omega)
    refine ⟨fun j => if j = k then z else c j, fun i hi => ?_⟩
    rw [Finset.sum_range_succ]
    simp only [if_true]
    have : ∀ j ∈ Finset.range k, R i j * (if j = k then z else c j) = R i j * c j := fun j hj => by
      rw [if_neg (by have := Finset.mem_range.1 hj; omega)]
    rw [Finset.sum_congr rfl this]
    by_cases hik : i = k
    · subst hik
      rw [Finset.sum_eq_zero fun j hj => by rw [h1 i j hi (Finset.mem_range.1 hj), zero_mul], zero_add, hz]
      have := h2 i hi
      field_simp
    · rw [hc i (by omega)]; ring

theorem QrOk.step {A : Nat → Nat → ℝ} {n m k : Nat} {Q R : Nat → Nat → ℝ} (h : QrOk A n m k Q R) (hk : k < m) (hm : m ≤ n) (hf : ColumnFar n A k) :
    ∃ Q' R', hhStep n m k (realState Q R) = realState Q' R' ∧ QrOk A n m (k + 1) Q' R' := by
  obtain ⟨c, hc⟩ := triangular_solve R k (fun i => R i k) (fun i j hi hj => h.tri i j (by omega) (by omega) hj) (fun j hj e => by
    have := h.diag j hj; rw [e, abs_zero] at this; norm_num at this)
  have hbig : (1e-10 : ℝ) ^ 2 < ∑ i ∈ Finset.Ico k n, R i k ^ 2 := by
    have := hf c
    rwa [h.column hk hm, Finset.sum_eq_zero fun i hi => by rw [hc i (Finset.mem_range.1 hi), sub_self, zero_pow two_ne_zero], zero_add] at this
  have hpos : 0 < ∑ i ∈ Finset.Ico k n, R i k ^ 2 := lt_trans (by norm_num) hbig
  have hkn : k < n := by omega
  refine ⟨_, _, hhStep_some hkn Q R hpos, fun y => ?_, fun i hi j hj => ?_, fun i j hi hj hji => ?_, fun j hj => ?_⟩
  · rw [← h.iso y, ← reflect_sq hkn.le (unitR_sq hkn hpos) fun i => ∑ j ∈ Finset.range n, Q i j * y j]
    refine Finset.sum_congr rfl fun i _ => ?_
    rw [← reflect_sum n Q y]
    congr 1
    exact Finset.sum_congr rfl fun j hj => by rw [if_pos (Finset.mem_range.1 hj)]
  · have hl : ∑ a ∈ Finset.range n, (if a < n then reflect n k (unitR n k fun i => R i k) (fun i => Q i a) i else Q i a) * A a j =
        reflect n k (unitR n k fun i => R i k) (fun i => R i j) i := by
      rw [Finset.sum_congr rfl fun a ha => by rw [if_pos (Finset.mem_range.1 ha)], reflect_sum]
      simp only [reflect]
      have e : ∀ l, l < n → ∑ a ∈ Finset.range n, Q l a * A a j = R l j := fun l hl => h.prod l hl j hj
      rw [e i hi, Finset.sum_congr rfl fun l hl => by rw [e l (Finset.mem_Ico.1 hl).2]]
    rw [hl]
    by_cases hkj : k ≤ j
    · rw [if_pos ⟨hkj, hj⟩]
    · rw [if_neg (by omega), reflect_zero fun l hl hn => h.tri l j hn (by omega) (by omega)]
  · rcases Nat.lt_succ_iff_lt_or_eq.1 hj with hj | rfl
    · rw [if_neg (by omega), h.tri i j hi hj hji]
    · rw [if_pos ⟨le_rfl, hk⟩]
      exact (reflect_column hkn hpos).2 i hji hi
  · rcases Nat.lt_succ_iff_lt_or_eq.1 hj with hj | rfl
    · rw [if_neg (by omega)]; exact h.diag j hj
    · rw [if_pos ⟨le_rfl, hk⟩, (reflect_column hkn hpos).1]
      refine lt_of_pow_lt_pow_left₀ 2 (abs_nonneg _) ?_
      rw [sq_abs, alphaR_sq]
      exact hbig

theorem hhSteps_far {A : Nat → Nat → ℝ} {n m : Nat} (hm : m ≤ n) : ∀ k, k ≤ m → (∀ j, j < k → ColumnFar n A j) → ∃ Q R, hhSteps A n m k = realState Q R ∧ QrOk A n m k Q R := by
  intro k
  induction k with
  | zero => exact fun _ _ => ⟨_, _, rfl, QrOk.start A n m⟩
  | succ k ih =>
    intro hk hf
    obtain ⟨Q, R, e, h⟩ := ih (by omega) fun j hj => hf j (by omega)
    obtain ⟨Q', R', e', h'⟩ := h.step (by omega) hm (hf k (by omega))
    exact ⟨Q', R', by rw [hhSteps, e, e'], h'⟩

/-! ## A dependent column -/

/-- From row `k` on nothing is a number. -/
def Stuck (n m k : Nat) (s : QrState) : Prop := ∀ i, k ≤ i → i < n → (∀ j, k ≤ j → j < m → s.R i j = none) ∧ ∀ j, j < n → s.Q i j = none

theorem dmul_none (a : Dbl) : dmul a none = none := by cases a <;> rfl

theorem dadd_none (a : Dbl) : dadd a none = none := by cases a <;> rfl

theorem dsub_none (a : Dbl) : dsub a none = none := by cases a <;> rfl

theorem none_dmul (a : Dbl) : dmul none a = none := rfl

theorem stuck_of_unit {n m k : Nat} {s : QrState} (h : ∀ i, k ≤ i → i < n → hhUnit n k s.R i = none) : Stuck n m k (hhStep n m k s) := by
  refine fun i hi hn => ⟨fun j hj hjm => ?_, fun j hj => ?_⟩
  · show (if k ≤ i ∧ i < n ∧ k ≤ j ∧ j < m then _ else _) = none
    rw [if_pos ⟨hi, hn, hj, hjm⟩, h i hi hn, dmul_none, none_dmul, dsub_none]
  · show (if k ≤ i ∧ i < n ∧ j < n then _ else _) = none
    rw [if_pos ⟨hi, hn, hj⟩, h i hi hn, dmul_none, none_dmul, dadd_none]

theorem QrOk.stuck {A : Nat → Nat → ℝ} {n m k : Nat} {Q R : Nat → Nat → ℝ} (h : QrOk A n m k Q R) (hk : k < m) (hm : m ≤ n) (hc : ColumnIn n A k) : Stuck n m k (hhStep n m k (realState Q R)) := by
  obtain ⟨c, hc⟩ := hc
  rw [h.column hk hm] at hc
  have h1 : 0 ≤ ∑ i ∈ Finset.range k, (∑ j ∈ Finset.range k, R i j * c j - R i k) ^ 2 := Finset.sum_nonneg fun _ _ => sq_nonneg _
  have h2 : 0 ≤ ∑ i ∈ Finset.Ico k n, R i k ^ 2 := Finset.sum_nonneg fun _ _ => sq_nonneg _
  have hz : ∑ i ∈ Finset.Ico k n, R i k ^ 2 = 0 := by linarith
  have hzero : ∀ i, k ≤ i → i < n → R i k = 0 := fun i hi hn => by
    have := (Finset.sum_eq_zero_iff_of_nonneg fun i _ => sq_nonneg (R i k)).1 hz i (Finset.mem_Ico.2 ⟨hi, hn⟩)
    exact pow_eq_zero_iff two_ne_zero |>.1 this
  have ha : alphaR n k (fun i => R i k) = 0 := pow_eq_zero_iff two_ne_zero |>.1 (by rw [alphaR_sq, hz])
  have hv : ∀ i, k ≤ i → i < n → vecR n k (fun i => R i k) i = 0 := fun i hi hn => by
    simp only [vecR]
    rw [ha, hzero i hi hn, hzero k le_rfl (by omega)]
    simp
  refine stuck_of_unit fun i hi hn => ?_
  unfold hhUnit
  show ddiv (hhVec n k (fun i j => some (R i j)) i) (dsqrt (dsum (fun i => dmul (hhVec n k (fun i j => some (R i j)) i) (hhVec n k (fun i j => some (R i j)) i)) k (n - k))) = none
  rw [dsum_Ico _ (fun i => 0) fun i hi hn => by rw [hhVec_some, hv i hi hn, dmul_some, mul_zero], hhVec_some]
  simp [dsqrt, ddiv]

theorem Stuck.step {n m k p : Nat} {s : QrState} (h : Stuck n m k s) (hp : k ≤ p) (hpm : p < m) (hm : m ≤ n) : Stuck n m k (hhStep n m p s) ∧
    ∀ i j, i < k → (hhStep n m p s).Q i j = s.Q i j ∧ (hhStep n m p s).R i j = s.R i j := by
  have hu : ∀ i, p ≤ i → i < n → hhUnit n p s.R i = none := fun i hi hn => by
    have : hhVec n p s.R i = none := by
      unfold hhVec
      split_ifs
      · rw [(h p hp (by omega)).1 p hp hpm]; rfl
      · exact (h i (by omega) hn).1 p hp hpm
    unfold hhUnit
    rw [this]; rfl
  have hs := stuck_of_unit (m := m) hu
  refine ⟨fun i hi hn => ⟨fun j hj hjm => ?_, fun j hj => ?_⟩, fun i j hi => ⟨?_, ?_⟩⟩
  · by_cases hpi : p ≤ i ∧ p ≤ j
    · exact (hs i hpi.1 hn).1 j hpi.2 hjm
    · show (if p ≤ i ∧ i < n ∧ p ≤ j ∧ j < m then _ else _) = none
      rw [if_neg (by tauto)]
      exact (h i hi hn).1 j hj hjm
  · by_cases hpi : p ≤ i
    · exact (hs i hpi hn).2 j hj
    · show (if p ≤ i ∧ i < n ∧ j < n then _ else _) = none
      rw [if_neg (by tauto)]
      exact (h i hi hn).2 j hj
  · exact if_neg (by omega)
  · exact if_neg (by omega)

/-- The state at the end, if the first `k` columns are far from each other and the next one is a combination of them. -/
theorem hhSteps_end {A : Nat → Nat → ℝ} {n m k : Nat} (hm : m ≤ n) (hk : k ≤ m) (hf : ∀ j, j < k → ColumnFar n A j) (hc : k < m → ColumnIn n A k) :
    ∃ Q R, QrOk A n m k Q R ∧ (∀ i j, i < k → (hhSteps A n m m).Q i j = some (Q i j) ∧ (hhSteps A n m m).R i j = some (R i j)) ∧
      ∀ i, k ≤ i → i < m → (hhSteps A n m m).R i i = none := by
  obtain ⟨Q, R, e, h⟩ := hhSteps_far hm k hk hf
  by_cases hkm : k < m
  · have hst : ∀ p, k < p → p ≤ m → Stuck n m k (hhSteps A n m p) ∧ ∀ i j, i < k → (hhSteps A n m p).Q i j = some (Q i j) ∧ (hhSteps A n m p).R i j = some (R i j) := by
      intro p hp
      induction p, hp using Nat.le_induction with
      | base =>
        intro _
        rw [hhSteps, e]
        exact ⟨h.stuck hkm hm (hc hkm), fun i j hi => ⟨if_neg (by omega), if_neg (by omega)⟩⟩
      | succ p hp ih =>
        intro hpm
        obtain ⟨h1, h2⟩ := ih (by omega)
        obtain ⟨h3, h4⟩ := h1.step (p := p) (by omega) (by omega) hm
        rw [hhSteps]
        exact ⟨h3, fun i j hi => ⟨(h4 i j hi).1.trans (h2 i j hi).1, (h4 i j hi).2.trans (h2 i j hi).2⟩⟩
    obtain ⟨h1, h2⟩ := hst m hkm le_rfl
    exact ⟨Q, R, h, h2, fun i hi him => (h1 i hi (by omega)).1 i hi him⟩
  · obtain rfl : k = m := by omega
    exact ⟨Q, R, h, fun i j _ => by rw [e]; exact ⟨rfl, rfl⟩, fun i hi him => absurd him (by omega)⟩

/-! ## Substitution -/

theorem backSum_some {R : Nat → Nat → Dbl} {x : Nat → Dbl} {r y : Nat → ℝ} {i m : Nat} : ∀ c, c ≤ m → (∀ j, m - c ≤ j → j < m → R i j = some (r j) ∧ x j = some (y j)) →
    backSum R x i m c = some (∑ j ∈ Finset.Ico (m - c) m, r j * y j) := by
  intro c
  induction c with
  | zero => intro _ _; simp [backSum]
  | succ c ih =>
    intro hc h
    rw [backSum, ih (by omega) fun j hj hm => h j (by omega) hm]
    have e : m - 1 - c = m - (c + 1) := by omega
    obtain ⟨h1, h2⟩ := h (m - (c + 1)) le_rfl (by omega)
    rw [e, h1, h2, dmul_some, dadd_some, Finset.sum_eq_sum_Ico_succ_bot (show m - (c + 1) < m by omega), show m - (c + 1) + 1 = m - c by omega, add_comm]

theorem backSolve_spec {m k : Nat} {R : Nat → Nat → Dbl} {r : Nat → Nat → ℝ} {bm x0 : Nat → Dbl} {β : Nat → ℝ} (hk : k ≤ m) (hR : ∀ i j, i < k → R i j = some (r i j)) (hb : ∀ i, i < k → bm i = some (β i))
    (hn : ∀ i, k ≤ i → i < m → R i i = none) (hd : ∀ i, i < k → 1e-10 < |r i i|) : ∀ c, c ≤ m →
    ∃ y : Nat → ℝ, (∀ j, m - c ≤ j → j < m → backSolve m R bm x0 c j = some (y j)) ∧ (∀ j, m - c ≤ j → k ≤ j → y j = 0) ∧
      ∀ i, m - c ≤ i → i < k → r i i * y i + ∑ j ∈ Finset.Ico (i + 1) m, r i j * y j = β i := by
  intro c
  induction c with
  | zero => exact fun _ => ⟨fun _ => 0, fun j hj hm => absurd hm (by omega), fun _ _ _ => rfl, fun i hi hik => absurd hik (by omega)⟩
  | succ c ih =>
    intro hc
    obtain ⟨y, h1, h2, h3⟩ := ih (by omega)
    set i := m - 1 - c with hi
    have hent : ∃ z, backEntry m R bm (backSolve m R bm x0 c) i = some z ∧ (k ≤ i → z = 0) ∧ (i < k → r i i * z + ∑ j ∈ Finset.Ico (i + 1) m, r i j * y j = β i) := by
      unfold backEntry
      by_cases hik : i < k
      · rw [hR i i hik, Option.map_some, dgt_some, if_pos (hd i hik)]
        rw [backSum_some (r := r i) (y := y) (m - 1 - i) (by omega) fun j hj hm => ⟨hR i j hik, h1 j (by omega) hm⟩, hb i hik, dsub_some]
        have hne : r i i ≠ 0 := fun e => by have := hd i hik; rw [e, abs_zero] at this; norm_num at this
        unfold ddiv
        simp only
        rw [if_neg hne]
        refine ⟨_, rfl, fun h => absurd h (by omega), fun _ => ?_⟩
        rw [show m - (m - 1 - i) = i + 1 by omega]
        field_simp
        ring
      · rw [hn i (by omega) (by omega), Option.map_none, if_neg (dgt_none _)]
        exact ⟨0, rfl, fun _ => rfl, fun h => absurd h hik⟩
    obtain ⟨z, e, z1, z2⟩ := hent
    refine ⟨fun j => if j = i then z else y j, fun j hj hm => ?_, fun j hj hkj => ?_, fun l hl hlk => ?_⟩
    · simp only [backSolve]
      by_cases hji : j = i
      · rw [if_pos (hji.trans hi), if_pos hji, ← hi, e]
      · rw [if_neg (fun h => hji (h.trans hi.symm)), if_neg hji]; exact h1 j (by omega) hm
    · simp only
      by_cases hji : j = i
      · rw [if_pos hji]; exact z1 (by omega)
      · rw [if_neg hji]; exact h2 j (by omega) hkj
    · have hsum : ∀ l, i ≤ l → ∑ j ∈ Finset.Ico (l + 1) m, r l j * (if j = i then z else y j) = ∑ j ∈ Finset.Ico (l + 1) m, r l j * y j := fun l hl =>
        Finset.sum_congr rfl fun j hj => by rw [if_neg (by have := (Finset.mem_Ico.1 hj).1; omega)]
      simp only
      rw [hsum l (by omega)]
      by_cases hli : l = i
      · subst hli; rw [if_pos rfl]; exact z2 hlk
      · rw [if_neg hli]; exact h3 l (by omega) hlk

/-! ## The solver -/

/-- **C95.** If the first `k` columns are more than `1e-10` away from the combinations of the ones before, and column `k`, if there is one, is such a combination, the solution is
zero from entry `k` on, and of all vectors with this property it is the one that comes closest to solving the equations.  With as many rows as far columns it solves them. -/
theorem C95_least_squares (n m k : Nat) (hm : m ≤ n) (h0 : 0 < m) (hk : k ≤ m) (A : Nat → Nat → ℝ) (b : Nat → ℝ) (x0 : Nat → Dbl) (hf : ∀ j, j < k → ColumnFar n A j)
    (hc : k < m → ColumnIn n A k) : ∃ x y, lsSolve n m A b x0 = some x ∧ (∀ j, j < m → x j = some (y j)) ∧ (∀ j, k ≤ j → j < m → y j = 0) ∧
      (k = n → residual n m A b y = 0) ∧
      ∀ z : Nat → ℝ, (∀ j, k ≤ j → j < m → z j = 0) → residual n m A b y ≤ residual n m A b z ∧ (residual n m A b z = residual n m A b y → ∀ j, j < m → z j = y j) := by
  obtain ⟨Q, R, hq, hrow, hnone⟩ := hhSteps_end hm hk hf hc
  set β : Nat → ℝ := fun i => ∑ a ∈ Finset.range n, Q i a * b a with hβ
  have hb : ∀ i, i < k → bMod n (fun i j => (hhSteps A n m m).Q j i) b i = some (β i) := fun i hi => by
    unfold bMod
    rw [dsum_some _ (fun l => Q i l * b l) 0 n fun l _ => by simp only; rw [(hrow i (0 + l) hi).1, dmul_some]]
    simp [hβ]
  obtain ⟨y, h1, h2, h3⟩ := backSolve_spec (m := m) (k := k) (R := (hhSteps A n m m).R) (r := R) (bm := bMod n (fun i j => (hhSteps A n m m).Q j i) b) (x0 := x0) (β := β) hk
    (fun i j hi => (hrow i j hi).2) hb hnone hq.diag m le_rfl
  refine ⟨_, y, ?_, fun j hj => h1 j (by omega) hj, fun j hj hjm => h2 j (by omega) hj, ?_⟩
  · unfold lsSolve householder
    rw [if_neg (by omega)]
    simp only
    rw [if_neg (by omega)]
  -- the residual of a vector that is zero from entry `k` on
  have hres : ∀ z : Nat → ℝ, (∀ j, k ≤ j → j < m → z j = 0) → residual n m A b z = ∑ i ∈ Finset.range k, (∑ j ∈ Finset.range m, R i j * z j - β i) ^ 2 + ∑ i ∈ Finset.Ico k n, β i ^ 2 := by
    intro z hz
    rw [hq.residual le_rfl, sum_split (show k ≤ n by omega)]
    congr 1
    refine Finset.sum_congr rfl fun i hi => ?_
    have hi := Finset.mem_Ico.1 hi
    rw [Finset.sum_eq_zero fun j hj => ?_]
    · ring
    have hj := Finset.mem_range.1 hj
    by_cases hjk : j < k
    · rw [hq.tri i j hi.2 hjk (by omega), zero_mul]
    · rw [hz j (by omega) hj, mul_zero]
  have hrowsum : ∀ (z : Nat → ℝ) (i : Nat), i < k → ∑ j ∈ Finset.range m, R i j * z j = R i i * z i + ∑ j ∈ Finset.Ico (i + 1) m, R i j * z j := fun z i hi => by
    rw [sum_split (show i ≤ m by omega), Finset.sum_eq_zero fun j hj => by rw [hq.tri i j (by omega) (by have := Finset.mem_range.1 hj; omega) (Finset.mem_range.1 hj), zero_mul], zero_add,
      Finset.sum_eq_sum_Ico_succ_bot (show i < m by omega)]
  have hy : residual n m A b y = ∑ i ∈ Finset.Ico k n, β i ^ 2 := by
    rw [hres y fun j hj hjm => h2 j (by omega) hj, Finset.sum_eq_zero fun i hi => ?_, zero_add]
    have hi := Finset.mem_range.1 hi
    rw [hrowsum y i hi, h3 i (by omega) hi, sub_self, zero_pow two_ne_zero]
  refine ⟨fun e => by rw [hy, e, Finset.Ico_self, Finset.sum_empty], fun z hz => ?_⟩
  have hnn : 0 ≤ ∑ i ∈ Finset.range k, (∑ j ∈ Finset.range m, R i j * z j - β i) ^ 2 := Finset.sum_nonneg fun _ _ => sq_nonneg _
  refine ⟨by rw [hy, hres z hz]; linarith, fun he => ?_⟩
  rw [hy, hres z hz] at he
  have hzero : ∀ i, i < k → ∑ j ∈ Finset.range m, R i j * z j = β i := fun i hi => by
    have := (Finset.sum_eq_zero_iff_of_nonneg fun i _ => sq_nonneg (∑ j ∈ Finset.range m, R i j * z j - β i)).1 (show _ = (0 : ℝ) by linarith) i (Finset.mem_range.2 hi)
    have := pow_eq_zero_iff two_ne_zero |>.1 this
    linarith
  have hall : ∀ c, c ≤ m → ∀ j, m - c ≤ j → j < m → z j = y j := by
    intro c
    induction c with
    | zero => exact fun _ j hj hjm => absurd hjm (by omega)
    | succ c ih =>
      intro hc j hj hjm
      by_cases hjc : m - c ≤ j
      · exact ih (by omega) j hjc hjm
      by_cases hjk : j < k
      · have e1 := hzero j hjk
        rw [hrowsum z j hjk, Finset.sum_congr rfl fun l hl => by rw [ih (by omega) l (by have := (Finset.mem_Ico.1 hl).1; omega) (Finset.mem_Ico.1 hl).2]] at e1
        have e2 := h3 j (by omega) hjk
        have hne : R j j ≠ 0 := fun e => by have := hq.diag j hjk; rw [e, abs_zero] at this; norm_num at this
        exact mul_left_cancel₀ hne (by linarith)
      · rw [hz j (by omega) hjm, h2 j (by omega) (by omega)]
  exact fun j hj => hall m le_rfl j (by omega) hj

/-- **C95, the usual case.** If all columns are more than `1e-10` away from the combinations of the ones before, the result is the least-squares solution, which is the only one. -/
theorem C95_full_rank (n m : Nat) (hm : m ≤ n) (h0 : 0 < m) (A : Nat → Nat → ℝ) (b : Nat → ℝ) (x0 : Nat → Dbl) (hf : ∀ j, j < m → ColumnFar n A j) :
    ∃ x y, lsSolve n m A b x0 = some x ∧ (∀ j, j < m → x j = some (y j)) ∧ ∀ z, residual n m A b y ≤ residual n m A b z ∧ (residual n m A b z = residual n m A b y → ∀ j, j < m → z j = y j) := by
  obtain ⟨x, y, h1, h2, -, -, h3⟩ := C95_least_squares n m m hm h0 le_rfl A b x0 hf fun h => absurd h (by omega)
  exact ⟨x, y, h1, h2, fun z => h3 z fun j hj hjm => absurd hjm (by omega)⟩

/-- **C95 does not hold without the condition on the columns.** The equations `x₁ = 1`, `0 = 0` in two unknowns have solutions; the result is the zero vector. -/
theorem C95_dependent_columns_false : ∃ (A : Nat → Nat → ℝ) (b : Nat → ℝ), (∃ z, residual 2 2 A b z = 0) ∧
    ∀ x0, ∃ x y, lsSolve 2 2 A b x0 = some x ∧ (∀ j, j < 2 → x j = some (y j)) ∧ 0 < residual 2 2 A b y := by
  refine ⟨fun i j => if i = 0 ∧ j = 1 then 1 else 0, fun i => if i = 0 then 1 else 0, ⟨fun _ => 1, ?_⟩, fun x0 => ?_⟩
  · simp [residual, Finset.sum_range_succ]
  · obtain ⟨x, y, h1, h2, h3, -, -⟩ := C95_least_squares 2 2 0 le_rfl (by norm_num) (by norm_num) (fun i j => if i = 0 ∧ j = 1 then 1 else 0) (fun i => if i = 0 then 1 else 0) x0
      (fun j h => absurd h (by omega)) fun _ => ⟨fun _ => 0, by simp [residual]⟩
    refine ⟨x, y, h1, h2, ?_⟩
    simp [residual, Finset.sum_range_succ, h3 1 (by norm_num) (by norm_num)]

/-- **C95, undefined cases.** With more unknowns than equations, or no unknowns, the behaviour is undefined. -/
theorem C95_wide_undefined (n m : Nat) (h : n < m ∨ m = 0) (A : Nat → Nat → ℝ) (b : Nat → ℝ) (x0 : Nat → Dbl) : lsSolve n m A b x0 = none := by
  unfold lsSolve householder
  by_cases hm : m > n
  · rw [if_pos hm]
  · rw [if_neg hm]
    simp only
    rw [if_pos (by omega)]

/-- A case: a line through three points, `(0, 1)`, `(1, 3)`, `(2, 2)`. -/
example : let A : Nat → Nat → ℝ := fun i j => if j = 0 then 1 else i
    let b : Nat → ℝ := fun i => if i = 0 then 1 else if i = 1 then 3 else 2
    ∃ x, lsSolve 3 2 A b (fun _ => none) = some x ∧ x 0 = some (3 / 2) ∧ x 1 = some (1 / 2) := by
  intro A b
  have far : ∀ j, j < 2 → ColumnFar 3 A j := by
    intro j hj c
    interval_cases j
    · norm_num [residual, A, Finset.sum_range_succ]
    · simp only [residual, A, Finset.sum_range_succ, Finset.sum_range_zero]
      norm_num
      nlinarith [sq_nonneg (c 0 - 1), sq_nonneg (c 0)]
  obtain ⟨x, y, h1, h2, h3⟩ := C95_full_rank 3 2 (by norm_num) (by norm_num) A b (fun _ => none) far
  have hm := (h3 fun j => if j = 0 then 3 / 2 else 1 / 2)
  have hy : residual 3 2 A b (fun j => if j = 0 then 3 / 2 else 1 / 2) = residual 3 2 A b y := by
    refine le_antisymm ?_ hm.1
    simp only [residual, A, b, Finset.sum_range_succ, Finset.sum_range_zero]
    norm_num
    nlinarith [sq_nonneg (y 0 - 3 / 2 + (y 1 - 1 / 2)), sq_nonneg (y 1 - 1 / 2)]
  have e := hm.2 hy
  refine ⟨x, h1, ?_, ?_⟩
  · rw [h2 0 (by norm_num), ← e 0 (by norm_num)]; norm_num
  · rw [h2 1 (by norm_num), ← e 1 (by norm_num)]; norm_num

/-! # Property C96: Voronoi vertices -/

/-- The squared distance in `d` dimensions. -/
def distSq (d : Nat) (p q : Nat → ℝ) : ℝ := ∑ j ∈ Finset.range d, (p j - q j) ^ 2

theorem vertex_row (d : Nat) (pts : Nat → Nat → ℝ) (seeds : Nat → Nat) (y : Nat → ℝ) (i : Nat) :
    2 * (∑ j ∈ Finset.range d, vertexMatrix pts seeds i j * y j - vertexRhs d pts seeds i) = distSq d y (pts (seeds 0)) - distSq d y (pts (seeds (i + 1))) := by
  unfold vertexRhs distSq vertexMatrix
  rw [← Finset.sum_sub_distrib, ← Finset.sum_sub_distrib, Finset.mul_sum]
  exact Finset.sum_congr rfl fun j _ => by ring

/-- **C96.** If the columns of the differences to the first seed are more than `1e-10` away from the combinations of the ones before, the vertex has the same distance from all seeds, and it
is the only such point. -/
theorem C96_equidistant (d np : Nat) (pts : Nat → Nat → ℝ) (seeds : Nat → Nat) (x0 : Nat → Dbl) (h0 : 0 < d) (hs : ∀ i, i ≤ d → seeds i < np)
    (hf : ∀ j, j < d → ColumnFar d (fun i j => pts (seeds (i + 1)) j - pts (seeds 0) j) j) :
    ∃ x v, voronoiVertex d np pts (d + 1) seeds x0 = some (true, x) ∧ (∀ j, j < d → x j = some (v j)) ∧ (∀ i, i ≤ d → distSq d v (pts (seeds i)) = distSq d v (pts (seeds 0))) ∧
      ∀ w, (∀ i, i ≤ d → distSq d w (pts (seeds i)) = distSq d w (pts (seeds 0))) → ∀ j, j < d → w j = v j := by
  obtain ⟨x, v, h1, h2, -, h3, h4⟩ := C95_least_squares d d d le_rfl h0 le_rfl (vertexMatrix pts seeds) (vertexRhs d pts seeds) x0 hf fun h => absurd h (by omega)
  have hz := h3 rfl
  refine ⟨x, v, ?_, h2, fun i hi => ?_, fun w hw => ?_⟩
  · unfold voronoiVertex
    rw [if_neg (by omega), if_pos fun i hi => hs i (by omega), h1]
    rfl
  · cases i with
    | zero => rfl
    | succ i =>
      have := (Finset.sum_eq_zero_iff_of_nonneg fun i _ => sq_nonneg _).1 hz i (Finset.mem_range.2 (by omega))
      have := pow_eq_zero_iff two_ne_zero |>.1 this
      have := vertex_row d pts seeds v i
      linarith
  · refine (h4 w fun j hj hjm => absurd hjm (by omega)).2 ?_
    rw [hz]
    refine Finset.sum_eq_zero fun i hi => ?_
    have := vertex_row d pts seeds w i
    rw [hw (i + 1) (by have := Finset.mem_range.1 hi; omega), sub_self] at this
    rw [show ∑ j ∈ Finset.range d, vertexMatrix pts seeds i j * w j - vertexRhs d pts seeds i = 0 by linarith, zero_pow two_ne_zero]

/-- **C96, the number of seeds.** With another number of seeds than the dimension and one, the answer is no and the vertex is left as it was. -/
theorem C96_number_of_seeds (d np : Nat) (pts : Nat → Nat → ℝ) (num : Nat) (seeds : Nat → Nat) (x0 : Nat → Dbl) (h : num ≠ d + 1) : voronoiVertex d np pts num seeds x0 = some (false, x0) := if_pos h

/-- **C96 does not hold for flat sets of seeds.** Four corners of a square in the plane `x = 5` have points at the same distance from all of them; the answer is yes, but the vertex is not
such a point. -/
theorem C96_flat_false : ∃ (pts : Nat → Nat → ℝ) (seeds : Nat → Nat), (∀ i, i ≤ 3 → seeds i < 4) ∧ (∃ w, ∀ i, i ≤ 3 → distSq 3 w (pts (seeds i)) = distSq 3 w (pts (seeds 0))) ∧
    ∀ x0, ∃ x v, voronoiVertex 3 4 pts 4 seeds x0 = some (true, x) ∧ (∀ j, j < 3 → x j = some (v j)) ∧ ∃ i, i ≤ 3 ∧ distSq 3 v (pts (seeds i)) ≠ distSq 3 v (pts (seeds 0)) := by
  set pts : Nat → Nat → ℝ := fun i j => if j = 0 then 5 else if j = 1 then (if i = 1 ∨ i = 3 then 2 else 0) else if 2 ≤ i then 2 else 0 with hp
  refine ⟨pts, fun i => i, fun i h => Nat.lt_succ_of_le h, ⟨fun _ => 1, fun i h => ?_⟩, fun x0 => ?_⟩
  · interval_cases i <;> norm_num [distSq, hp, Finset.sum_range_succ]
  · obtain ⟨x, v, h1, h2, h3, -, -⟩ := C95_least_squares 3 3 0 le_rfl (by norm_num) (by norm_num) (vertexMatrix pts fun i => i) (vertexRhs 3 pts fun i => i) x0
      (fun j h => absurd h (by omega)) fun _ => ⟨fun _ => 0, by simp [residual, vertexMatrix, hp]⟩
    refine ⟨x, v, ?_, h2, 1, by norm_num, ?_⟩
    · unfold voronoiVertex
      rw [if_neg (by norm_num), if_pos fun i hi => hi, h1]
      rfl
    · norm_num [distSq, hp, Finset.sum_range_succ, h3 0, h3 1, h3 2]

/-- A case: the corners `0`, `2e₀`, `2e₁`, `2e₂` of a tetrahedron. -/
example (x0 : Nat → Dbl) : let pts : Nat → Nat → ℝ := fun i j => if i = j + 1 then 2 else 0
    ∃ x, voronoiVertex 3 4 pts 4 (fun i => i) x0 = some (true, x) ∧ ∀ j, j < 3 → x j = some 1 := by
  intro pts
  obtain ⟨x, v, h1, h2, -, h4⟩ := C96_equidistant 3 4 pts (fun i => i) x0 (by norm_num) (fun i h => by omega) fun j hj c => by
    interval_cases j
    · norm_num [residual, pts, Finset.sum_range_succ]
    · simp only [residual, pts, Finset.sum_range_succ, Finset.sum_range_zero]
      norm_num
      nlinarith [sq_nonneg (c 0)]
    · simp only [residual, pts, Finset.sum_range_succ, Finset.sum_range_zero]
      norm_num
      nlinarith [sq_nonneg (c 0), sq_nonneg (c 1)]
  refine ⟨x, h1, fun j hj => ?_⟩
  rw [h2 j hj, ← h4 (fun _ => 1) (fun i hi => ?_) j hj]
  interval_cases i <;> norm_num [distSq, pts, Finset.sum_range_succ]

end VoroCrust
