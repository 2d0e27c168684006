import Mathlib.RingTheory.Polynomial.Chebyshev
import Mathlib.Tactic.Ring
import Mathlib.Tactic.Linarith
import Mathlib.Tactic.SplitIfs
import Mathlib.Algebra.BigOperators.Fin
import Verif.Model.Basis

/-!
# C63: the polynomial basis of MeshingVoroSpokes
-/

namespace VoroCrust

open Polynomial

theorem chebRec_eq (x : ℝ) (m : Nat) : ∀ fuel j, m + 1 ≤ fuel → chebRec x (j + 2 + m) fuel ((Chebyshev.T ℝ (j + 1 : ℕ)).eval x) ((Chebyshev.T ℝ (j : ℕ)).eval x) (j + 2) = some ((Chebyshev.T ℝ (j + 2 + m : ℕ)).eval x) := by
  have hT : ∀ j : Nat, 2 * x * (Chebyshev.T ℝ (j + 1 : ℕ)).eval x - (Chebyshev.T ℝ (j : ℕ)).eval x = (Chebyshev.T ℝ (j + 2 : ℕ)).eval x := by
    intro j
    have := Chebyshev.T_add_two ℝ (j : ℤ)
    push_cast
    rw [this]
    simp
  induction m with
  | zero =>
    intro fuel j hf
    obtain ⟨f, rfl⟩ := Nat.exists_eq_add_of_le' hf
    rw [Nat.zero_add, chebRec, if_pos (by omega), hT]
  | succ m ih =>
    intro fuel j hf
    obtain ⟨f, rfl⟩ : ∃ f, fuel = f + 1 := ⟨fuel - 1, by omega⟩
    rw [chebRec, if_neg (by omega), hT]
    have := ih f (j + 1) (by omega)
    rw [show j + 1 + 2 + m = j + 2 + (m + 1) by omega] at this
    exact this

/-- **C63**: the one dimensional basis functions are the Chebyshev polynomials, or the powers. -/
theorem C63_chebyshev (x : ℝ) (n fuel : Nat) (hf : n ≤ fuel + 1) : basis1 true fuel x n = some ((Chebyshev.T ℝ n).eval x) ∧ basis1 false fuel x n = some (x ^ n) := by
  refine ⟨?_, by simp [basis1]⟩
  unfold basis1
  rw [if_neg (by simp)]
  by_cases h0 : n = 0
  · subst h0; simp
  rw [if_neg h0]
  by_cases h1 : n = 1
  · subst h1; simp
  rw [if_neg h1]
  have := chebRec_eq x (n - 2) fuel 0 (by omega)
  rw [show 0 + 2 + (n - 2) = n by omega] at this
  simpa using this

/-! ## The odometer -/

/-- The number with the first `k` entries as digits. -/
def encIdx (order : Nat) (idx : Nat → Nat) : Nat → Nat
  | 0 => 0
  | k + 1 => encIdx order idx k * (order + 1) + idx k

theorem encIdx_congr (order : Nat) {a b : Nat → Nat} (k : Nat) (h : ∀ i, i < k → a i = b i) : encIdx order a k = encIdx order b k := by
  induction k with
  | zero => rfl
  | succ k ih => rw [encIdx, encIdx, ih fun i hi => h i (by omega), h k (by omega)]

theorem encIdx_carry (order : Nat) {a b : Nat → Nat} (k : Nat) (hk : b (k + 1) = 0) (hk1 : a (k + 1) = order + 1) (hk2 : b k = a k + 1) (h : ∀ i, i ≠ k → i ≠ k + 1 → b i = a i) (d : Nat) (hd : k + 1 < d) :
    encIdx order b d = encIdx order a d := by
  induction d with
  | zero => omega
  | succ d ih =>
    by_cases hkd : k + 1 < d
    · rw [encIdx, encIdx, ih hkd, h d (by omega) (by omega)]
    · obtain rfl : d = k + 1 := by omega
      rw [encIdx, encIdx, encIdx, encIdx, hk, hk1, hk2, encIdx_congr order k fun i hi => h i (by omega) (by omega)]
      ring

theorem carryIdx_spec (order d : Nat) (k : Nat) : ∀ idx, k < d → (∀ i, i ≠ k → idx i ≤ order) → idx k ≤ order + 1 →
    encIdx order (carryIdx order k idx) d = encIdx order idx d ∧ (∀ i, i ≠ 0 → carryIdx order k idx i ≤ order) ∧ carryIdx order k idx 0 ≤ order + 1 := by
  induction k with
  | zero => intro idx _ h1 h2; exact ⟨rfl, h1, h2⟩
  | succ k ih =>
    intro idx hd h1 h2
    rw [carryIdx]
    split_ifs with hc
    · obtain ⟨g1, g2, g3⟩ := ih (upd (upd idx (k + 1) 0) k (idx k + 1)) (by omega)
        (by
          intro i hi
          have := h1 i
          simp only [upd]
          by_cases hk : i = k + 1
          · subst hk; simp
          · rw [if_neg hi, if_neg hk]; exact this hk)
        (by have := h1 k (by omega); simp [upd]; omega)
      refine ⟨?_, g2, g3⟩
      rw [g1]
      apply encIdx_carry order k _ _ _ _ d hd
      · simp [upd]
      · omega
      · simp [upd]
      · intro i hi1 hi2; simp [upd, hi1, hi2]
    · refine ⟨rfl, fun i hi => ?_, ?_⟩
      · by_cases hk : i = k + 1
        · subst hk; omega
        · exact h1 i hk
      · have := h1 0 (by omega); omega

theorem encIdx_upd_last (order : Nat) (idx : Nat → Nat) {d : Nat} (hd : 0 < d) : encIdx order (upd idx (d - 1) (idx (d - 1) + 1)) d = encIdx order idx d + 1 := by
  obtain ⟨k, rfl⟩ : ∃ k, d = k + 1 := ⟨d - 1, by omega⟩
  rw [encIdx, encIdx, Nat.add_sub_cancel, encIdx_congr order (b := idx) k fun i hi => by simp [upd, Nat.ne_of_lt hi]]
  simp [upd]
  omega

theorem nextIdx_spec {order d : Nat} (hd : 0 < d) {idx : Nat → Nat} (h : ∀ i, idx i ≤ order) :
    encIdx order (nextIdx d order idx) d = encIdx order idx d + 1 ∧ (∀ i, i ≠ 0 → nextIdx d order idx i ≤ order) ∧ nextIdx d order idx 0 ≤ order + 1 := by
  obtain ⟨h1, h2, h3⟩ := carryIdx_spec order d (d - 1) (upd idx (d - 1) (idx (d - 1) + 1)) (by omega) (fun i hi => by simp [upd, hi, h]) (by simp [upd, h])
  exact ⟨by rw [← encIdx_upd_last order idx hd]; exact h1, h2, h3⟩

theorem encIdx_lt {order : Nat} {idx : Nat → Nat} (k : Nat) (h : ∀ i, i < k → idx i ≤ order) : encIdx order idx k < (order + 1) ^ k := by
  induction k with
  | zero => simp [encIdx]
  | succ k ih =>
    have h1 := ih fun i hi => h i (by omega)
    have h2 := h k (by omega)
    rw [encIdx, pow_succ]
    nlinarith

theorem encIdx_ge {order : Nat} {idx : Nat → Nat} (h : order < idx 0) (k : Nat) (hk : 0 < k) : (order + 1) ^ k ≤ encIdx order idx k := by
  induction k with
  | zero => omega
  | succ k ih =>
    rw [encIdx, pow_succ]
    by_cases hk : k = 0
    · subst hk; simp [encIdx]; omega
    · have := ih (by omega)
      nlinarith

theorem encIdx_inj {order : Nat} {a b : Nat → Nat} (k : Nat) (ha : ∀ i, i < k → a i ≤ order) (hb : ∀ i, i < k → b i ≤ order) (h : encIdx order a k = encIdx order b k) : ∀ i, i < k → a i = b i := by
  induction k with
  | zero => intro i hi; omega
  | succ k ih =>
    rw [encIdx, encIdx] at h
    have h1 := ha k (by omega)
    have h2 := hb k (by omega)
    have e1 : encIdx order a k = encIdx order b k := by
      have := congrArg (· / (order + 1)) h
      simp only [Nat.mul_add_div (show 0 < order + 1 by omega), mul_comm _ (order + 1), Nat.div_eq_of_lt (show a k < order + 1 by omega), Nat.div_eq_of_lt (show b k < order + 1 by omega)] at this
      omega
    have e2 : a k = b k := by rw [e1] at h; omega
    intro i hi
    by_cases hik : i = k
    · rw [hik]; exact e2
    · exact ih (fun i hi => ha i (by omega)) (fun i hi => hb i (by omega)) e1 i (by omega)

/-- The digits of `v`. -/
def decIdx (d order v : Nat) (i : Nat) : Nat := if i < d then v / (order + 1) ^ (d - 1 - i) % (order + 1) else 0

theorem decIdx_le (d order v i : Nat) : decIdx d order v i ≤ order := by
  unfold decIdx
  split_ifs
  · have := Nat.mod_lt (v / (order + 1) ^ (d - 1 - i)) (show 0 < order + 1 by omega); omega
  · omega

theorem encIdx_dec (d order v : Nat) (k : Nat) : k ≤ d → encIdx order (decIdx d order v) k = v / (order + 1) ^ (d - k) % (order + 1) ^ k := by
  induction k with
  | zero => intro _; simp [encIdx, Nat.mod_one]
  | succ k ih =>
    intro hk
    rw [encIdx, ih (by omega), decIdx, if_pos (by omega), show d - k = (d - (k + 1)) + 1 by omega, show d - 1 - k = d - (k + 1) by omega, pow_succ, ← Nat.div_div_eq_div_mul, pow_succ (order + 1) k,
      mul_comm ((order + 1) ^ k), Nat.mod_mul]
    rw [mul_comm, add_comm]

theorem encIdx_dec_self {d order v : Nat} (hv : v < (order + 1) ^ d) : encIdx order (decIdx d order v) d = v := by
  rw [encIdx_dec d order v d (le_refl _)]
  simp [Nat.mod_eq_of_lt hv]

/-- The multi-indices admitted: not constant, no entry above the order and, without `_use_total_order`, not the sum either. -/
def Admitted (total : Bool) (d order : Nat) (α : Fin d → Nat) : Prop := (∀ i, α i ≤ order) ∧ (∃ i, α i ≠ 0) ∧ (total = false → ∑ i, α i ≤ order)

theorem idxSum_eq (idx : Nat → Nat) (d : Nat) : idxSum idx d = ∑ i : Fin d, idx i := by
  induction d with
  | zero => simp [idxSum]
  | succ d ih => rw [idxSum, ih, Fin.sum_univ_castSucc]; simp

theorem idxSum_congr {a b : Nat → Nat} (d : Nat) (h : ∀ i, i < d → a i = b i) : idxSum a d = idxSum b d := by
  induction d with
  | zero => rfl
  | succ d ih => rw [idxSum, idxSum, ih fun i hi => h i (by omega), h d (by omega)]

/-- The admitted numbers from `v` on. -/
def admittedFrom (total : Bool) (d order v : Nat) : List Nat :=
  (List.range' v ((order + 1) ^ d - v)).filter fun w => !(!total && decide (idxSum (decIdx d order w) d > order))

theorem admittedFrom_step (total : Bool) {d order v : Nat} (hv : v < (order + 1) ^ d) :
    admittedFrom total d order v = (if !total && decide (idxSum (decIdx d order v) d > order) then [] else [v]) ++ admittedFrom total d order (v + 1) := by
  unfold admittedFrom
  rw [show (order + 1) ^ d - v = ((order + 1) ^ d - (v + 1)) + 1 by omega, List.range'_succ, List.filter_cons]
  split_ifs <;> simp_all

/-- What one round of the odometer sees. -/
theorem nextIdx_dec {d order v : Nat} (hd : 0 < d) {idx : Nat → Nat} (hb : ∀ i, idx i ≤ order) (hv : encIdx order idx d = v) :
    (order < nextIdx d order idx 0 ↔ (order + 1) ^ d ≤ v + 1) ∧ (nextIdx d order idx 0 ≤ order → (∀ i, nextIdx d order idx i ≤ order) ∧ encIdx order (nextIdx d order idx) d = v + 1 ∧
      v + 1 < (order + 1) ^ d ∧ ∀ i, i < d → nextIdx d order idx i = decIdx d order (v + 1) i) := by
  obtain ⟨h1, h2, h3⟩ := nextIdx_spec hd hb
  rw [hv] at h1
  have hlt : nextIdx d order idx 0 ≤ order → v + 1 < (order + 1) ^ d := by
    intro h0
    rw [← h1]
    exact encIdx_lt d fun i _ => if hi : i = 0 then hi ▸ h0 else h2 i hi
  constructor
  · constructor
    · intro h0; rw [← h1]; exact encIdx_ge h0 d hd
    · intro h0; by_contra h4; have := hlt (by omega); omega
  · intro h0
    have hall : ∀ i, nextIdx d order idx i ≤ order := fun i => if hi : i = 0 then hi ▸ h0 else h2 i hi
    refine ⟨hall, h1, hlt h0, ?_⟩
    apply encIdx_inj (order := order) d (fun i _ => hall i) fun i _ => decIdx_le _ _ _ _
    rw [h1, encIdx_dec_self (hlt h0)]

theorem numBasisLoop_eq (total : Bool) {d order : Nat} (hd : 0 < d) (fuel : Nat) : ∀ idx v cnt, (∀ i, idx i ≤ order) → encIdx order idx d = v → (order + 1) ^ d ≤ v + fuel →
    numBasisLoop total d order fuel idx cnt = some (cnt + (admittedFrom total d order (v + 1)).length) := by
  induction fuel with
  | zero =>
    intro idx v cnt hb hv hf
    have := encIdx_lt (order := order) (idx := idx) d fun i _ => hb i
    omega
  | succ fuel ih =>
    intro idx v cnt hb hv hf
    obtain ⟨h1, h2⟩ := nextIdx_dec hd hb hv
    rw [numBasisLoop]
    by_cases h0 : nextIdx d order idx 0 > order
    · rw [if_pos h0]
      have := h1.1 h0
      simp [admittedFrom, show (order + 1) ^ d - (v + 1) = 0 by omega]
    · obtain ⟨g1, g2, g3, g4⟩ := h2 (by omega)
      rw [if_neg h0, idxSum_congr d g4, ih _ _ _ g1 g2 (by omega), ih _ _ _ g1 g2 (by omega), admittedFrom_step total g3]
      by_cases hs : (!total && decide (idxSum (decIdx d order (v + 1)) d > order)) = true
      · rw [if_pos hs, if_pos hs]; simp
      · rw [if_neg hs, if_neg hs]; simp; omega

theorem basisProd_eq (cheb : Bool) (fuel : Nat) (x : Nat → ℝ) (idx : Nat → Nat) (d : Nat) (h : ∀ i, i < d → idx i ≤ fuel + 1) :
    basisProd cheb fuel x idx d = some (∏ i : Fin d, if cheb then (Chebyshev.T ℝ (idx i)).eval (x i) else x i ^ idx i) := by
  induction d with
  | zero => simp [basisProd]
  | succ d ih =>
    obtain ⟨h1, h2⟩ := C63_chebyshev (x d) (idx d) fuel (h d (by omega))
    rw [basisProd, ih fun i hi => h i (by omega), Fin.prod_univ_castSucc]
    cases cheb
    · rw [h2]; simp
    · rw [h1]; simp

/-- The value of the basis function of a multi-index. -/
noncomputable def basisValue (cheb : Bool) {d : Nat} (α : Fin d → Nat) (x : Nat → ℝ) : ℝ := ∏ i, if cheb then (Chebyshev.T ℝ (α i)).eval (x i) else x i ^ α i

theorem evalBasisLoop_eq (cheb total : Bool) {d order : Nat} (hd : 0 < d) (ibasis : Nat) (x : Nat → ℝ) (fuel : Nat) : ∀ idx v cnt, (∀ i, idx i ≤ order) → encIdx order idx d = v → (order + 1) ^ d ≤ v + fuel → cnt ≤ ibasis →
    evalBasisLoop cheb total d order ibasis x fuel idx cnt = some (match (admittedFrom total d order (v + 1))[ibasis - cnt]? with
      | some w => (basisValue cheb (fun i : Fin d => decIdx d order w i) x, ∑ i : Fin d, decIdx d order w i)
      | none => (0, 0)) := by
  induction fuel with
  | zero =>
    intro idx v cnt hb hv hf
    have := encIdx_lt (order := order) (idx := idx) d fun i _ => hb i
    omega
  | succ fuel ih =>
    intro idx v cnt hb hv hf hc
    obtain ⟨h1, h2⟩ := nextIdx_dec hd hb hv
    rw [evalBasisLoop]
    by_cases h0 : nextIdx d order idx 0 > order
    · rw [if_pos h0]
      have := h1.1 h0
      simp [admittedFrom, show (order + 1) ^ d - (v + 1) = 0 by omega]
    · obtain ⟨g1, g2, g3, g4⟩ := h2 (by omega)
      rw [if_neg h0, idxSum_congr d g4, admittedFrom_step total g3]
      by_cases hs : (!total && decide (idxSum (decIdx d order (v + 1)) d > order)) = true
      · rw [if_pos hs, if_pos hs, ih _ _ _ g1 g2 (by omega) hc, List.nil_append]
      · rw [if_neg hs, if_neg hs]
        by_cases hi : cnt = ibasis
        · rw [if_pos hi, basisProd_eq cheb (order + 1) x _ d fun i _ => by have := g1 i; omega]
          rw [hi, Nat.sub_self, List.singleton_append, List.getElem?_cons_zero]
          simp only [basisValue]
          rw [← idxSum_eq]
          congr 2
          apply Finset.prod_congr rfl
          intro i _
          rw [g4 i i.2]
        · rw [if_neg hi, ih _ _ _ g1 g2 (by omega) (by omega), List.singleton_append]
          rw [show ibasis - cnt = (ibasis - (cnt + 1)) + 1 by omega, List.getElem?_cons_succ]

theorem zero_encIdx (order d : Nat) : encIdx order (fun _ => 0) d = 0 := by
  induction d with
  | zero => rfl
  | succ d ih => rw [encIdx, ih]; simp

/-- **C63**: for every dimension from one on and every order, the loops end and enumerate the same list of multi-indices: each admitted one exactly once, in lexicographic order.  Their number is what `get_num_basis` returns, and
`evaluate_basis` with index `i` returns the product of the one dimensional functions of the `i`-th multi-index and its degree, or zero from that number on. -/
theorem C63_basis (cheb total : Bool) (d order : Nat) (hd : 0 < d) :
    ∃ L : List (Fin d → Nat), L.Nodup ∧ (∀ α, α ∈ L ↔ Admitted total d order α) ∧ L.Pairwise (fun α β => ∃ i, (∀ j, j < i → α j = β j) ∧ α i < β i) ∧
      ∀ fuel, (order + 1) ^ d ≤ fuel → numBasis total d order fuel = some L.length ∧ ∀ ibasis x, evalBasis cheb total d order ibasis x fuel = some (match L[ibasis]? with
        | some α => (basisValue cheb α x, ∑ i, α i)
        | none => (0, 0)) := by
  have hm : ∀ w, w ∈ admittedFrom total d order 1 ↔ (1 ≤ w ∧ w < (order + 1) ^ d) ∧ (total = false → idxSum (decIdx d order w) d ≤ order) := by
    intro w
    have : 1 ≤ (order + 1) ^ d := Nat.one_le_pow _ _ (by omega)
    simp only [admittedFrom, List.mem_filter, List.mem_range'_1, Bool.not_eq_true', Bool.and_eq_false_iff, Bool.not_eq_false', decide_eq_false_iff_not, not_lt]
    rw [show 1 + ((order + 1) ^ d - 1) = (order + 1) ^ d by omega]
    cases total <;> simp
  have hsorted : (admittedFrom total d order 1).Pairwise (· < ·) := List.Pairwise.filter _ List.pairwise_lt_range'
  have hlex : ∀ v w, v < w → w < (order + 1) ^ d → ∃ i : Fin d, (∀ j : Fin d, j < i → decIdx d order v j = decIdx d order w j) ∧ decIdx d order v i < decIdx d order w i := by
    intro v w hvw hw
    have key : ∀ k, encIdx order (decIdx d order v) k < encIdx order (decIdx d order w) k → ∃ i, i < k ∧ (∀ j, j < i → decIdx d order v j = decIdx d order w j) ∧ decIdx d order v i < decIdx d order w i := by
      intro k
      induction k with
      | zero => intro h; simp [encIdx] at h
      | succ k ih =>
        intro h
        by_cases hlt : encIdx order (decIdx d order v) k < encIdx order (decIdx d order w) k
        · obtain ⟨i, h1, h2⟩ := ih hlt
          exact ⟨i, by omega, h2⟩
        · rw [encIdx, encIdx] at h
          have b1 := decIdx_le d order v k
          have b2 := decIdx_le d order w k
          have he : encIdx order (decIdx d order v) k = encIdx order (decIdx d order w) k := by
            by_contra hne
            have : encIdx order (decIdx d order w) k + 1 ≤ encIdx order (decIdx d order v) k := by omega
            have := Nat.mul_le_mul_right (order + 1) this
            rw [add_mul] at this
            omega
          exact ⟨k, by omega, encIdx_inj k (fun i _ => decIdx_le _ _ _ _) (fun i _ => decIdx_le _ _ _ _) he, by rw [he] at h; omega⟩
    obtain ⟨i, h1, h2, h3⟩ := key d (by rw [encIdx_dec_self hw, encIdx_dec_self (by omega)]; exact hvw)
    exact ⟨⟨i, h1⟩, fun j hj => h2 j hj, h3⟩
  have hL : ((admittedFrom total d order 1).map fun w (i : Fin d) => decIdx d order w i).Pairwise (fun α β => ∃ i, (∀ j, j < i → α j = β j) ∧ α i < β i) := by
    rw [List.pairwise_map]
    refine hsorted.imp_of_mem fun {v w} hv hw hvw => ?_
    exact hlex v w hvw ((hm w).1 hw).1.2
  refine ⟨(admittedFrom total d order 1).map fun w (i : Fin d) => decIdx d order w i, ?_, fun α => ?_, hL, fun fuel hf => ⟨?_, fun ibasis x => ?_⟩⟩
  · refine hL.imp ?_
    rintro α _ ⟨i, -, h⟩ rfl
    omega
  · rw [List.mem_map]
    constructor
    · rintro ⟨w, hw, rfl⟩
      obtain ⟨⟨h1, h2⟩, h3⟩ := (hm w).1 hw
      refine ⟨fun i => decIdx_le _ _ _ _, ?_, fun ht => by rw [← idxSum_eq]; exact h3 ht⟩
      by_contra hn
      push Not at hn
      have := encIdx_dec_self h2
      rw [encIdx_congr order (b := fun _ => 0) d fun i hi => hn ⟨i, hi⟩, zero_encIdx] at this
      omega
    · rintro ⟨h1, ⟨i, hi⟩, h3⟩
      have hex : ∀ j, (hj : j < d) → (fun j => if h : j < d then α ⟨j, h⟩ else 0) j = α ⟨j, hj⟩ := fun j hj => by simp [hj]
      generalize (fun j => if h : j < d then α ⟨j, h⟩ else 0) = a at hex
      have hle : ∀ j, j < d → a j ≤ order := fun j hj => by rw [hex j hj]; exact h1 _
      have hlt := encIdx_lt d hle
      have hdec : ∀ j, j < d → decIdx d order (encIdx order a d) j = a j :=
        encIdx_inj (order := order) d (fun j _ => decIdx_le _ _ _ _) hle (encIdx_dec_self hlt)
      refine ⟨encIdx order a d, (hm _).2 ⟨⟨?_, hlt⟩, fun ht => ?_⟩, ?_⟩
      · by_contra h0
        have : encIdx order a d = encIdx order (fun _ => 0) d := by rw [zero_encIdx]; omega
        have := encIdx_inj d hle (fun _ _ => Nat.zero_le _) this i i.2
        rw [hex i i.2] at this
        exact hi this
      · rw [idxSum_congr d hdec, idxSum_eq]
        rw [Finset.sum_congr rfl fun (j : Fin d) _ => hex j j.2]
        exact h3 ht
      · funext j
        rw [hdec j j.2, hex j j.2]
  · unfold numBasis
    rw [if_neg (by omega), numBasisLoop_eq total hd fuel (fun _ => 0) 0 0 (fun _ => Nat.zero_le _) (zero_encIdx _ _) (by omega)]
    simp
  · unfold evalBasis
    rw [if_neg (by omega), evalBasisLoop_eq cheb total hd ibasis x fuel (fun _ => 0) 0 0 (fun _ => Nat.zero_le _) (zero_encIdx _ _) (by omega) (Nat.zero_le _)]
    rw [Nat.sub_zero, Nat.zero_add, List.getElem?_map]
    cases (admittedFrom total d order 1)[ibasis]? <;> rfl

/-- Dimension two, order two: five functions without `_use_total_order` and eight with it. -/
example : numBasis false 2 2 9 = some 5 ∧ numBasis true 2 2 9 = some 8 := by decide

/-- **C63**: dimension 0 writes outside the array of indices. -/
theorem C63_dimension_zero_undefined (total : Bool) (order fuel : Nat) : numBasis total 0 order fuel = none := by simp [numBasis]

end VoroCrust
