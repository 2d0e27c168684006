import Verif.Props.Sparse
import Mathlib.Tactic.FieldSimp
import Mathlib.Tactic.Positivity
import Mathlib.Tactic.NormNum

/-! # Cholesky factorisation and solver: C47, C70 -/

namespace VoroCrust

open Finset

theorem sum_Icc_zero {M : Type} [AddCommMonoid M] (f : Nat → M) (i : Nat) (h : 0 < i) : ∑ r ∈ Icc 0 (i - 1), f r = ∑ r ∈ range i, f r := by
  congr 1; ext r; simp only [mem_Icc, mem_range]; omega

/-! ## C47 -/

section Solver
variable {K : Type} [Field K] [DecidableEq K]

/-- Every row pointer below `n` holds the corresponding row of `m`. -/
def RowsHold (n : Nat) (C : SpMat K) (m : Nat → Nat → Option K) : Prop := ∀ r, r < n → PtrRep (C r) (m r)

theorem getEntry_ptr (v : Option (SpVec K)) (m : Nat → Option K) (h : PtrRep v m) (row : Nat) (hne : valueAt m row ≠ 0) :
    getEntry row v = some (valueAt m row) := by
  cases v with
  | none =>
    have h : ∀ r, m r = none := h
    unfold valueAt at hne; rw [h] at hne; simp at hne
  | some v => exact getEntry_rep row v m h

theorem forwardSolve_spec (n : Nat) (C : SpMat K) (m : Nat → Nat → Option K) (h : RowsHold n C m) (hd : ∀ i, i < n → valueAt (m i) i ≠ 0)
    (b : Nat → K) (i : Nat) (hi : i ≤ n) :
    ∃ y, forwardSolve C b i = some y ∧ ∃ g : Nat → K, (∀ k, k < i → y k = some (g k)) ∧
      ∀ k, k < i → ∑ j ∈ range (k + 1), valueAt (m k) j * g j = b k := by
  induction i with
  | zero => exact ⟨_, rfl, fun _ => 0, fun k hk => by omega, fun k hk => by omega⟩
  | succ i ih =>
    obtain ⟨y, e, g, hg, hs⟩ := ih (by omega)
    have hdot : (if 0 < i then denseDot (C i) y 0 (i - 1) else some 0) = some (∑ j ∈ range i, valueAt (m i) j * g j) := by
      by_cases h0 : 0 < i
      · rw [if_pos h0, C46_dense_dot (C i) (m i) (h i (by omega)) y g 0 (i - 1) (fun r _ hr => hg r (by omega)), sum_Icc_zero _ _ h0]
      · rw [if_neg h0, show i = 0 by omega]; simp
    have hdg := hd i (by omega)
    have hget := getEntry_ptr (C i) (m i) (h i (by omega)) i hdg
    refine ⟨upd y i (some ((b i - ∑ j ∈ range i, valueAt (m i) j * g j) / valueAt (m i) i)), ?_,
      upd g i ((b i - ∑ j ∈ range i, valueAt (m i) j * g j) / valueAt (m i) i), fun k hk => ?_, fun k hk => ?_⟩
    · rw [forwardSolve]
      simp only [e, hdot, hget, divDiag, if_neg hdg, Option.map_some]
    · simp only [upd]
      by_cases hki : k = i
      · rw [if_pos hki, if_pos hki]
      · rw [if_neg hki, if_neg hki]; exact hg k (by omega)
    · by_cases hki : k = i
      · subst hki
        rw [sum_range_succ, sum_congr rfl (g := fun j => valueAt (m k) j * g j)]
        · simp only [upd, if_pos]
          field_simp; ring
        · intro j hj
          simp only [upd]
          rw [if_neg (by have := mem_range.1 hj; omega)]
      · rw [← hs k (by omega)]
        refine sum_congr rfl fun j hj => ?_
        simp only [upd]
        rw [if_neg (by have := mem_range.1 hj; omega)]

theorem backwardSolve_spec (n : Nat) (C : SpMat K) (m : Nat → Nat → Option K) (h : RowsHold n C m) (hd : ∀ i, i < n → valueAt (m i) i ≠ 0)
    (y : Nat → Option K) (gy : Nat → K) (hy : ∀ k, k < n → y k = some (gy k)) (r : Nat) (hr : r < n) (x : Nat → Option K) (gx : Nat → K)
    (hx : ∀ k, r < k → k < n → x k = some (gx k)) (hs : ∀ k, r < k → k < n → ∑ j ∈ Icc k (n - 1), valueAt (m k) j * gx j = gy k) :
    ∃ x', backwardSolve C n y r x = some x' ∧ ∃ g : Nat → K, (∀ k, k < n → x' k = some (g k)) ∧
      ∀ k, k < n → ∑ j ∈ Icc k (n - 1), valueAt (m k) j * g j = gy k := by
  induction r generalizing x gx with
  | zero =>
    have hdot := C46_dense_dot (C 0) (m 0) (h 0 hr) x gx (0 + 1) (n - 1) (fun k h1 h2 => hx k (by omega) (by omega))
    have hdg := hd 0 hr
    have hget := getEntry_ptr (C 0) (m 0) (h 0 hr) 0 hdg
    refine ⟨upd x 0 (some ((gy 0 - ∑ j ∈ Icc (0 + 1) (n - 1), valueAt (m 0) j * gx j) / valueAt (m 0) 0)), ?_,
      upd gx 0 ((gy 0 - ∑ j ∈ Icc (0 + 1) (n - 1), valueAt (m 0) j * gx j) / valueAt (m 0) 0), fun k hk => ?_, fun k hk => ?_⟩
    · unfold backwardSolve
      simp only [hdot, hget, hy 0 hr, divDiag, if_neg hdg]
    · simp only [upd]
      by_cases hk0 : k = 0
      · rw [if_pos hk0, if_pos hk0]
      · rw [if_neg hk0, if_neg hk0]; exact hx k (by omega) hk
    · by_cases hk0 : k = 0
      · subst hk0
        rw [show Icc 0 (n - 1) = insert 0 (Icc (0 + 1) (n - 1)) by ext j; simp only [mem_Icc, mem_insert]; omega, sum_insert (by simp),
          show ∀ z, ∑ j ∈ Icc (0 + 1) (n - 1), valueAt (m 0) j * upd gx 0 z j = ∑ j ∈ Icc (0 + 1) (n - 1), valueAt (m 0) j * gx j from
            fun z => sum_congr rfl fun j hj => by rw [upd, if_neg (by have := (mem_Icc.1 hj).1; omega)]]
        simp only [upd, if_pos]
        field_simp; ring
      · rw [← hs k (by omega) hk]
        refine sum_congr rfl fun j hj => ?_
        simp only [upd]
        rw [if_neg (by have := (mem_Icc.1 hj).1; omega)]
  | succ r ih =>
    have hdot := C46_dense_dot (C (r + 1)) (m (r + 1)) (h _ hr) x gx (r + 1 + 1) (n - 1) (fun k h1 h2 => hx k (by omega) (by omega))
    have hdg := hd (r + 1) hr
    have hget := getEntry_ptr (C (r + 1)) (m (r + 1)) (h _ hr) (r + 1) hdg
    obtain ⟨x', e, g, h1, h2⟩ := ih (by omega)
      (upd x (r + 1) (some ((gy (r + 1) - ∑ j ∈ Icc (r + 1 + 1) (n - 1), valueAt (m (r + 1)) j * gx j) / valueAt (m (r + 1)) (r + 1))))
      (upd gx (r + 1) ((gy (r + 1) - ∑ j ∈ Icc (r + 1 + 1) (n - 1), valueAt (m (r + 1)) j * gx j) / valueAt (m (r + 1)) (r + 1)))
      (fun k hk hkn => by
        simp only [upd]
        by_cases hk1 : k = r + 1
        · rw [if_pos hk1, if_pos hk1]
        · rw [if_neg hk1, if_neg hk1]; exact hx k (by omega) hkn)
      (fun k hk hkn => by
        by_cases hk1 : k = r + 1
        · subst hk1
          rw [show Icc (r + 1) (n - 1) = insert (r + 1) (Icc (r + 1 + 1) (n - 1)) by ext j; simp only [mem_Icc, mem_insert]; omega,
            sum_insert (by simp),
            show ∀ z, ∑ j ∈ Icc (r + 1 + 1) (n - 1), valueAt (m (r + 1)) j * upd gx (r + 1) z j = ∑ j ∈ Icc (r + 1 + 1) (n - 1), valueAt (m (r + 1)) j * gx j from
              fun z => sum_congr rfl fun j hj => by rw [upd, if_neg (by have := (mem_Icc.1 hj).1; omega)]]
          simp only [upd, if_pos]
          field_simp; ring
        · rw [← hs k (by omega) hkn]
          refine sum_congr rfl fun j hj => ?_
          simp only [upd]
          rw [if_neg (by have := (mem_Icc.1 hj).1; omega)])
    refine ⟨x', ?_, g, h1, h2⟩
    unfold backwardSolve
    simp only [hdot, hget, hy _ hr, divDiag, if_neg hdg]
    exact e

/-- The lower triangle of the stored matrix. -/
def lower (m : Nat → Nat → Option K) (i j : Nat) : K := if j ≤ i then valueAt (m i) j else 0

/-- **C47.** If the factor is stored in both triangles (`C i j = C j i`) and its diagonal has no zero, the solver returns a vector,
fully written, that solves `L Lᵀ x = b`. -/
theorem C47_cholesky_solver (n : Nat) (hn : 0 < n) (C : SpMat K) (m : Nat → Nat → Option K) (h : RowsHold n C m)
    (hsym : ∀ i j, i < n → j < n → valueAt (m i) j = valueAt (m j) i) (hd : ∀ i, i < n → valueAt (m i) i ≠ 0) (b : Nat → K) :
    ∃ (x : Nat → Option K) (g : Nat → K), choleskySolve C n b = some x ∧ (∀ k, k < n → x k = some (g k)) ∧
      ∀ i, i < n → ∑ k ∈ range n, (∑ j ∈ range n, lower m i j * lower m k j) * g k = b i := by
  obtain ⟨y, ey, gy, hy, hys⟩ := forwardSolve_spec n C m h hd b n le_rfl
  obtain ⟨x, ex, g, hx, hxs⟩ := backwardSolve_spec n C m h hd y gy hy (n - 1) (by omega) (fun _ => none) (fun _ => 0)
    (fun k h1 h2 => by omega) (fun k h1 h2 => by omega)
  refine ⟨x, g, ?_, hx, fun i hi => ?_⟩
  · unfold choleskySolve
    rw [if_neg (by omega), ey]; exact ex
  · have hT : ∀ j, j < n → ∑ k ∈ range n, lower m k j * g k = gy j := by
      intro j hj
      rw [← hxs j hj]
      have : Icc j (n - 1) = (range n).filter fun k => j ≤ k := by
        ext k; simp only [mem_Icc, mem_filter, mem_range]; omega
      rw [this, sum_filter]
      refine sum_congr rfl fun k hk => ?_
      unfold lower
      split
      · rw [hsym k j (mem_range.1 hk) hj]
      · simp
    calc ∑ k ∈ range n, (∑ j ∈ range n, lower m i j * lower m k j) * g k
        = ∑ j ∈ range n, lower m i j * ∑ k ∈ range n, lower m k j * g k := by
          simp only [sum_mul, mul_sum]
          rw [sum_comm]
          refine sum_congr rfl fun j _ => sum_congr rfl fun k _ => by ring
      _ = ∑ j ∈ range n, lower m i j * gy j := sum_congr rfl fun j hj => by rw [hT j (mem_range.1 hj)]
      _ = b i := by
          rw [← hys i hi]
          have : range (i + 1) = (range n).filter fun j => j ≤ i := by
            ext j; simp only [mem_filter, mem_range]; omega
          rw [this, sum_filter]
          refine sum_congr rfl fun j _ => ?_
          unfold lower
          split <;> simp

/-- **C47, preconditions.** Without rows the last row index underflows; with a zero on the diagonal there is a division by zero. -/
theorem C47_no_rows_undefined (C : SpMat K) (b : Nat → K) : choleskySolve C 0 b = none := by simp [choleskySolve]

theorem C47_zero_diagonal_undefined (C : SpMat K) (m : Nat → Nat → Option K) (n : Nat) (h : RowsHold n C m) (b : Nat → K) (i : Nat) (hi : i < n)
    (hz : valueAt (m i) i = 0) : choleskySolve C n b = none := by
  have key : ∀ k, i < k → forwardSolve C b k = none := by
    intro k hk
    induction k with
    | zero => omega
    | succ k ih =>
      rw [forwardSolve]
      by_cases hik : i = k
      · subst hik
        cases forwardSolve C b i with
        | none => rfl
        | some y =>
          have hg : getEntry i (C i) = none ∨ getEntry i (C i) = some 0 := by
            cases hc : C i with
            | none => left; rfl
            | some v =>
              right
              have := h i hi
              rw [hc] at this
              rw [getEntry_rep i v (m i) this]
              unfold valueAt at hz; rw [hz]
          simp only
          generalize (if 0 < i then denseDot (C i) y 0 (i - 1) else some 0) = q
          rcases hg with hg | hg <;> rw [hg]
          · cases q <;> rfl
          · cases q with
            | none => rfl
            | some dot => simp [divDiag]
      · rw [ih (by omega)]
  unfold choleskySolve
  rw [if_neg (by omega), key n hi]

end Solver

/-! ## C70 -/

/-- Every row pointer below `n` is non-null and holds the corresponding row of `m`. -/
def MatRep (n : Nat) (A : SpMat ℝ) (m : Nat → Nat → Option ℝ) : Prop := ∀ r, r < n → ∃ v, A r = some v ∧ SpRep v (m r)

theorem MatRep.ptr {n : Nat} {A : SpMat ℝ} {m : Nat → Nat → Option ℝ} (h : MatRep n A m) {r : Nat} (hr : r < n) : PtrRep (A r) (m r) := by
  obtain ⟨v, e, hv⟩ := h r hr
  rw [e]; exact hv

theorem MatRep.get {n : Nat} {A : SpMat ℝ} {m : Nat → Nat → Option ℝ} (h : MatRep n A m) {r : Nat} (hr : r < n) (c : Nat) :
    getEntry c (A r) = some (valueAt (m r) c) := by
  obtain ⟨v, e, hv⟩ := h r hr
  rw [e]; exact getEntry_rep c v _ hv

theorem MatRep.dot {n : Nat} {A : SpMat ℝ} {m : Nat → Nat → Option ℝ} (h : MatRep n A m) {r s : Nat} (hr : r < n) (hs : s < n) (i : Nat) :
    (if 0 < i then sparseDot (A r) (A s) 0 (i - 1) else some 0) = some (∑ l ∈ range i, valueAt (m r) l * valueAt (m s) l) := by
  by_cases h0 : 0 < i
  · rw [if_pos h0, C46_sparse_dot _ _ _ _ (h.ptr hr) (h.ptr hs), sum_Icc_zero _ _ h0]
  · rw [if_neg h0, show i = 0 by omega]; simp

/-- What a write stores. -/
noncomputable def stored (x : ℝ) : Option ℝ := if tiny x then none else some x

theorem setMat_rep {n : Nat} {A : SpMat ℝ} {m : Nat → Nat → Option ℝ} (h : MatRep n A m) (row col : Nat) (x : ℝ) (hr : row < n) :
    ∃ A', setMat A row col x = some A' ∧ MatRep n A' (fun r c => if r = row ∧ c = col then stored x else m r c) := by
  obtain ⟨v, e, hv⟩ := h row hr
  obtain ⟨v', e', h', hne⟩ := setEntry_rep tiny col x (A row) (m row) (h.ptr hr)
  refine ⟨upd A row v', by rw [setMat, e']; rfl, fun r hrn => ?_⟩
  by_cases hrr : r = row
  · subst hrr
    cases v' with
    | none => exact absurd rfl (hne (by rw [e]; simp))
    | some w =>
      refine ⟨w, by simp [upd], ?_⟩
      have h' : SpRep w (writeMap tiny col x (m r)) := h'
      convert h' using 1
      funext c
      unfold writeMap stored
      by_cases hc : c = col
      · rw [hc, Function.update_self]; simp
      · rw [Function.update_of_ne hc]; simp [hc]
  · obtain ⟨w, ew, hw⟩ := h r hrn
    exact ⟨w, by simp [upd, hrr, ew], by simpa [hrr] using hw⟩

theorem MatRep.congr {n : Nat} {A : SpMat ℝ} {m m' : Nat → Nat → Option ℝ} (h : MatRep n A m) (e : ∀ r c, r < n → m r c = m' r c) : MatRep n A m' := by
  intro r hr
  obtain ⟨v, ev, hv⟩ := h r hr
  refine ⟨v, ev, ?_⟩
  have : m r = m' r := funext fun c => e r c hr
  rwa [this] at hv

theorem cholColumn_spec {n : Nat} (i : Nat) (lii : ℝ) (hi : i < n) (cnt j : Nat) (A : SpMat ℝ) (m : Nat → Nat → Option ℝ) (h : MatRep n A m)
    (hij : i < j) (hj : j + cnt ≤ n) :
    ∃ A', cholColumn i lii cnt j A = some A' ∧ MatRep n A' (fun r c => if c = i ∧ j ≤ r ∧ r < j + cnt then
      stored ((valueAt (m r) i - ∑ l ∈ range i, valueAt (m i) l * valueAt (m r) l) / lii) else m r c) := by
  induction cnt generalizing j A m with
  | zero => exact ⟨A, rfl, h.congr fun r c _ => by rw [if_neg (by omega)]⟩
  | succ cnt ih =>
    obtain ⟨A1, e1, h1⟩ := setMat_rep h j i ((valueAt (m j) i - ∑ l ∈ range i, valueAt (m i) l * valueAt (m j) l) / lii) (by omega)
    obtain ⟨A2, e2, h2⟩ := ih (j + 1) A1 _ h1 (by omega) (by omega)
    refine ⟨A2, ?_, h2.congr fun r c hr => ?_⟩
    · rw [cholColumn]
      simp only [h.dot hi (by omega : j < n) i, h.get (by omega : j < n) i, e1]
      exact e2
    · by_cases hc : c = i
      · subst hc
        by_cases hrj : r = j
        · subst hrj
          rw [if_neg (by omega), if_pos ⟨rfl, rfl⟩, if_pos (by omega)]
        · by_cases hrange : j + 1 ≤ r ∧ r < j + 1 + cnt
          · rw [if_pos ⟨rfl, hrange⟩, if_pos (by omega)]
            congr 2
            · congr 1
              · simp only [valueAt]; rw [if_neg (by omega)]
              · refine sum_congr rfl fun l hl => ?_
                have := mem_range.1 hl
                simp only [valueAt]
                rw [if_neg (by omega), if_neg (by omega)]
          · rw [if_neg (by omega), if_neg (by omega), if_neg (by omega)]
      · rw [if_neg (by omega), if_neg (by omega), if_neg (by omega)]

/-- What the first loop has computed after `i` columns. -/
structure CholInv (n : Nat) (a m : Nat → Nat → Option ℝ) (i : Nat) : Prop where
  diag : ∀ k, k < i → 1e-10 ≤ valueAt (a k) k - ∑ l ∈ range k, valueAt (m k) l * valueAt (m k) l ∧
    m k k = some (Real.sqrt (valueAt (a k) k - ∑ l ∈ range k, valueAt (m k) l * valueAt (m k) l))
  below : ∀ k r, k < i → k < r → r < n →
    m r k = stored ((valueAt (a r) k - ∑ l ∈ range k, valueAt (m k) l * valueAt (m r) l) / valueAt (m k) k)
  rest : ∀ r c, i ≤ c ∨ r < c → m r c = a r c

theorem sqrt_not_tiny {x : ℝ} (h : 1e-10 ≤ x) : 1e-5 ≤ Real.sqrt x ∧ tiny (Real.sqrt x) = false := by
  have h1 : (1e-5 : ℝ) ≤ Real.sqrt x := by
    apply Real.le_sqrt_of_sq_le
    norm_num at h ⊢; exact h
  refine ⟨h1, ?_⟩
  unfold tiny
  rw [decide_eq_false_iff_not, abs_of_nonneg (Real.sqrt_nonneg x)]
  norm_num at h1 ⊢; linarith

theorem cholRows_spec {n : Nat} (A : SpMat ℝ) (a : Nat → Nat → Option ℝ) (h : MatRep n A a) (i : Nat) (hi : i ≤ n) :
    ∃ o, cholRows n i A = some o ∧ (∀ A', o = some A' → ∃ m, MatRep n A' m ∧ CholInv n a m i) ∧
      (o = none → ∃ k m, k < i ∧ CholInv n a m k ∧ valueAt (a k) k - ∑ l ∈ range k, valueAt (m k) l * valueAt (m k) l < 1e-10) := by
  induction i with
  | zero =>
    refine ⟨some A, rfl, fun A' e => ?_, by simp⟩
    cases e
    exact ⟨a, h, fun k hk => by omega, fun k r hk => by omega, fun _ _ _ => rfl⟩
  | succ i ih =>
    obtain ⟨o, e, ho, hfail⟩ := ih (by omega)
    rw [cholRows, e]
    cases o with
    | none =>
      obtain ⟨k, m, hk, h1⟩ := hfail rfl
      exact ⟨none, rfl, fun A' e => by simp at e, fun _ => ⟨k, m, by omega, h1⟩⟩
    | some A1 =>
      obtain ⟨m, hm, inv⟩ := ho A1 rfl
      simp only [hm.dot (by omega : i < n) (by omega : i < n) i, hm.get (by omega : i < n) i]
      have hii : valueAt (m i) i = valueAt (a i) i := by unfold valueAt; rw [inv.rest i i (by omega)]
      rw [hii]
      set p := valueAt (a i) i - ∑ l ∈ range i, valueAt (m i) l * valueAt (m i) l with hp
      by_cases hlt : p < 1e-10
      · rw [if_pos hlt]; exact ⟨none, rfl, fun A' e => by simp at e, fun _ => ⟨i, m, by omega, inv, hlt⟩⟩
      · rw [if_neg hlt]
        have hge : 1e-10 ≤ p := not_lt.1 hlt
        obtain ⟨hpos, htiny⟩ := sqrt_not_tiny hge
        obtain ⟨A2, e2, h2⟩ := setMat_rep hm i i (Real.sqrt p) (by omega)
        obtain ⟨A3, e3, h3⟩ := cholColumn_spec i (Real.sqrt p) (by omega) (n - (i + 1)) (i + 1) A2 _ h2 (by omega) (by omega)
        simp only [e2, e3]
        refine ⟨some A3, rfl, fun A' e => ?_, by simp⟩
        cases e
        refine ⟨fun r c => if c = i ∧ i < r ∧ r < n then stored ((valueAt (a r) i - ∑ l ∈ range i, valueAt (m i) l * valueAt (m r) l) / Real.sqrt p)
          else if r = i ∧ c = i then some (Real.sqrt p) else m r c, ?_, ?_⟩
        · refine h3.congr fun r c hr => ?_
          by_cases hc : c = i ∧ i + 1 ≤ r ∧ r < i + 1 + (n - (i + 1))
          · rw [if_pos hc, if_pos (by omega)]
            congr 2
            congr 1
            · simp only [valueAt]; rw [if_neg (by omega), inv.rest r i (by omega)]
            · refine sum_congr rfl fun l hl => ?_
              have := mem_range.1 hl
              simp only [valueAt]
              rw [if_neg (by omega), if_neg (by omega)]
          · rw [if_neg hc, if_neg (by omega : ¬ (c = i ∧ i < r ∧ r < n))]
            by_cases hri : r = i ∧ c = i
            · rw [if_pos hri, if_pos hri, stored, htiny]; rfl
            · rw [if_neg hri, if_neg hri]
        · -- entries in columns below `i` are as before
          have old : ∀ r c, c < i → (fun r c => if c = i ∧ i < r ∧ r < n then stored ((valueAt (a r) i - ∑ l ∈ range i, valueAt (m i) l * valueAt (m r) l) / Real.sqrt p)
              else if r = i ∧ c = i then some (Real.sqrt p) else m r c) r c = m r c := by
            intro r c hc
            simp only
            rw [if_neg (by omega), if_neg (by omega)]
          generalize hm' : (fun r c => if c = i ∧ i < r ∧ r < n then stored ((valueAt (a r) i - ∑ l ∈ range i, valueAt (m i) l * valueAt (m r) l) / Real.sqrt p)
              else if r = i ∧ c = i then some (Real.sqrt p) else m r c) = m' at old ⊢
          have vold : ∀ r c, c < i → valueAt (m' r) c = valueAt (m r) c := fun r c hc => by unfold valueAt; rw [old r c hc]
          have mii : m' i i = some (Real.sqrt p) := by
            rw [← hm']; simp
          have sums : ∀ k r s, k ≤ i → ∑ l ∈ range k, valueAt (m' r) l * valueAt (m' s) l = ∑ l ∈ range k, valueAt (m r) l * valueAt (m s) l :=
            fun k r s hk => sum_congr rfl fun l hl => by
              have := mem_range.1 hl
              rw [vold r l (by omega), vold s l (by omega)]
          refine ⟨fun k hk => ?_, fun k r hk hkr hr => ?_, fun r c hrc => ?_⟩
          · by_cases hki : k = i
            · subst hki
              rw [sums k k k le_rfl, mii]
              exact ⟨hge, rfl⟩
            · rw [sums k k k (by omega), old k k (by omega)]
              exact inv.diag k (by omega)
          · by_cases hki : k = i
            · subst hki
              rw [sums k k r le_rfl]
              have : valueAt (m' k) k = Real.sqrt p := by unfold valueAt; rw [mii]; rfl
              rw [this, ← hm']; simp [hkr, hr]
            · rw [sums k k r (by omega), old r k (by omega), vold k k (by omega)]
              exact inv.below k r (by omega) hkr hr
          · rw [← hm']; simp only
            rw [if_neg (by omega), if_neg (by omega)]
            exact inv.rest r c (by omega)

/-! ### The second loop -/

theorem dropWhileAbove_spec (row i : Nat) (nnz : Nat) (v : SpVec ℝ) (hi : i ≤ nnz) (hall : ∀ k, i ≤ k → k < nnz → row < v.idx k) :
    ∃ v', dropWhileAbove row i nnz v = (i, v') ∧ v'.cap = v.cap ∧ (∀ k, k < i → v'.idx k = v.idx k ∧ v'.val k = v.val k) := by
  induction nnz generalizing v with
  | zero => exact ⟨v, by rw [dropWhileAbove, show i = 0 by omega], rfl, fun _ _ => ⟨rfl, rfl⟩⟩
  | succ nnz ih =>
    rw [dropWhileAbove]
    by_cases hc : row < v.idx i ∧ i < nnz + 1
    · rw [if_pos hc]
      obtain ⟨v', e, h1, h2⟩ := ih { v with idx := upd v.idx i (v.idx nnz), val := upd v.val i (v.val nnz) } (by omega) (fun k hk hkn => by
        show row < upd v.idx i (v.idx nnz) k
        simp only [upd]
        split
        · exact hall nnz (by omega) (by omega)
        · exact hall k hk (by omega))
      refine ⟨v', e, h1, fun k hk => ?_⟩
      obtain ⟨h3, h4⟩ := h2 k hk
      simp only [upd, if_neg (show ¬ k = i by omega)] at h3 h4
      exact ⟨h3, h4⟩
    · rw [if_neg hc]
      have : i = nnz + 1 := by
        by_contra hne
        exact hc ⟨hall i le_rfl (by omega), by omega⟩
      exact ⟨v, by rw [this], rfl, fun _ _ => ⟨rfl, rfl⟩⟩

theorem dropAbove_spec (row : Nat) (t nnz : Nat) (v : SpVec ℝ) (ht : t ≤ nnz) (hle : ∀ k, k < t → v.idx k ≤ row)
    (hgt : ∀ k, t ≤ k → k < nnz → row < v.idx k) (fuel i : Nat) (hi : i ≤ t) (hf : nnz ≤ fuel + i) :
    ∃ v', dropAbove row fuel i nnz v = v' ∧ v'.num = t ∧ v'.cap = v.cap ∧ ∀ k, k < t → v'.idx k = v.idx k ∧ v'.val k = v.val k := by
  induction fuel generalizing i with
  | zero =>
    refine ⟨_, rfl, ?_, rfl, fun _ _ => ⟨rfl, rfl⟩⟩
    show nnz = t
    omega
  | succ fuel ih =>
    rw [dropAbove]
    by_cases hin : i < nnz
    · rw [if_pos hin]
      by_cases hit : i < t
      · have : dropWhileAbove row i nnz v = (nnz, v) := by
          cases nnz with
          | zero => rfl
          | succ nnz => rw [dropWhileAbove, if_neg]; have := hle i hit; omega
        rw [this]
        exact ih (i + 1) (by omega) (by omega)
      · have hit' : i = t := by omega
        subst hit'
        obtain ⟨v', e, h1, h2⟩ := dropWhileAbove_spec row i nnz v ht hgt
        rw [e]
        simp only
        refine ⟨{ v' with num := i }, ?_, rfl, h1, h2⟩
        cases fuel with
        | zero => rfl
        | succ fuel => rw [dropAbove, if_neg (by omega)]
    · rw [if_neg hin]
      refine ⟨_, rfl, ?_, rfl, fun _ _ => ⟨rfl, rfl⟩⟩
      show nnz = t
      omega

/-- The entries not above `row` come first. -/
theorem SpRep.split {v : SpVec ℝ} {m : Nat → Option ℝ} (h : SpRep v m) (row : Nat) :
    ∃ t, t ≤ v.num ∧ (∀ k, k < t → v.idx k ≤ row) ∧ ∀ k, t ≤ k → k < v.num → row < v.idx k := by
  by_cases hex : ∃ k, k < v.num ∧ row < v.idx k
  · classical
    refine ⟨Nat.find hex, (Nat.find_spec hex).1.le, fun k hk => ?_, fun k hk hkn => ?_⟩
    · have := Nat.find_min hex hk
      have h1 := (Nat.find_spec hex).1
      by_contra hc
      exact this ⟨by omega, by omega⟩
    · have h2 := (Nat.find_spec hex).2
      rcases Nat.eq_or_lt_of_le hk with e | hlt
      · rw [← e]; exact h2
      · exact h2.trans (h.sorted _ _ hlt hkn)
  · push Not at hex
    exact ⟨v.num, le_rfl, hex, fun k hk hkn => by omega⟩

theorem dropAbove_rep {v : SpVec ℝ} {m : Nat → Option ℝ} (h : SpRep v m) (row : Nat) :
    SpRep (dropAbove row v.num 0 v.num v) (fun c => if c ≤ row then m c else none) := by
  obtain ⟨t, ht, hle, hgt⟩ := h.split row
  obtain ⟨v', e, hn, hc, hs⟩ := dropAbove_spec row t v.num v ht hle hgt v.num 0 (by omega) (by omega)
  rw [e]
  have hf := h.fits
  refine ⟨by omega, by rw [hc]; exact h.pos, fun i j hij hj => ?_, fun i hi => ?_, fun r x hr => ?_⟩
  · rw [(hs i (by omega)).1, (hs j (by omega)).1]; exact h.sorted i j hij (by omega)
  · obtain ⟨h1, h2⟩ := hs i (by omega)
    rw [h1, h2, if_pos (hle i (by omega))]; exact h.sound i (by omega)
  · split at hr
    · rename_i hrow
      obtain ⟨i, hi, ei⟩ := h.complete r x hr
      have hit : i < t := by
        by_contra hc'
        have := hgt i (by omega) hi
        omega
      exact ⟨i, by omega, by rw [(hs i hit).1, ei]⟩
    · simp at hr

theorem lowerPart_spec {n : Nat} (A : SpMat ℝ) (m : Nat → Nat → Option ℝ) (h : MatRep n A m) (i : Nat) (hi : i ≤ n) :
    ∃ B, lowerPart A i = some B ∧ MatRep n B (fun r c => if r < i ∧ r < c then none else m r c) := by
  induction i with
  | zero => exact ⟨A, rfl, h.congr fun r c _ => by rw [if_neg (by omega)]⟩
  | succ i ih =>
    obtain ⟨B, e, hB⟩ := ih (by omega)
    obtain ⟨v, ev, hv⟩ := hB i (by omega)
    refine ⟨upd B i (some (dropAbove i v.num 0 v.num v)), by rw [lowerPart, e]; simp only [ev], fun r hr => ?_⟩
    by_cases hri : r = i
    · subst hri
      refine ⟨dropAbove r v.num 0 v.num v, by simp [upd], ?_⟩
      convert dropAbove_rep hv r using 1
      funext c
      show (if _ then _ else _) = _
      simp only
      split_ifs <;> first | rfl | omega
    · obtain ⟨w, ew, hw⟩ := hB r hr
      refine ⟨w, by simp [upd, hri, ew], ?_⟩
      convert hw using 1
      funext c
      show (if _ then _ else _) = _
      simp only
      split_ifs <;> first | rfl | omega

/-! ### The third loop -/

theorem mirrorRow_spec {n : Nat} (row : Nat) (hrow : row < n) (v : SpVec ℝ) (mv : Nat → Option ℝ) (hv : SpRep v mv)
    (hbig : ∀ k, k < v.num → tiny (v.val k) = false) (cnt i : Nat) (hcnt : i + cnt = v.num) (A : SpMat ℝ) (m : Nat → Nat → Option ℝ) (h : MatRep n A m)
    (hi : ∀ r, r < row → m r row = if ∃ k, k < i ∧ v.idx k = r then mv r else none) :
    ∃ A', mirrorRow row v cnt i A = some A' ∧ MatRep n A' (fun r c => if r < row ∧ c = row then mv r else m r c) := by
  induction cnt generalizing i A m with
  | zero =>
    refine ⟨A, rfl, h.congr fun r c _ => ?_⟩
    split
    · rename_i hrc
      rw [hrc.2, hi r hrc.1]
      split
      · rfl
      · rename_i hno
        cases hm : mv r with
        | none => rfl
        | some x => obtain ⟨k, hk, e⟩ := hv.complete r x hm; exact absurd ⟨k, by omega, e⟩ hno
    · rfl
  | succ cnt ih =>
    rw [mirrorRow]
    by_cases hlt : v.idx i < row
    · rw [if_pos hlt]
      obtain ⟨A1, e1, h1⟩ := setMat_rep h (v.idx i) row (v.val i) (by omega)
      obtain ⟨A2, e2, h2⟩ := ih (i + 1) (by omega) A1 _ h1 (fun r hr => by
        by_cases hri : r = v.idx i
        · rw [if_pos ⟨hri, rfl⟩, if_pos ⟨i, by omega, hri.symm⟩]
          rw [hri, hv.sound i (by omega)]
          unfold stored; rw [hbig i (by omega)]; rfl
        · rw [if_neg (by omega), hi r hr]
          have : (∃ k, k < i ∧ v.idx k = r) ↔ ∃ k, k < i + 1 ∧ v.idx k = r := by
            constructor
            · rintro ⟨k, hk, e⟩; exact ⟨k, by omega, e⟩
            · rintro ⟨k, hk, e⟩
              refine ⟨k, ?_, e⟩
              by_contra hc
              rw [show k = i by omega] at e
              exact hri e.symm
          simp only [this])
      simp only [e1]
      refine ⟨A2, e2, h2.congr fun r c _ => ?_⟩
      by_cases hrc : r < row ∧ c = row
      · rw [if_pos hrc, if_pos hrc]
      · rw [if_neg hrc, if_neg hrc, if_neg (by omega)]
    · rw [if_neg hlt]
      refine ih (i + 1) (by omega) A m h (fun r hr => ?_)
      rw [hi r hr]
      have : (∃ k, k < i ∧ v.idx k = r) ↔ ∃ k, k < i + 1 ∧ v.idx k = r := by
        constructor
        · rintro ⟨k, hk, e⟩; exact ⟨k, by omega, e⟩
        · rintro ⟨k, hk, e⟩
          refine ⟨k, ?_, e⟩
          by_contra hc
          rw [show k = i by omega] at e
          omega
      simp only [this]

theorem mirrorRows_spec {n : Nat} (A : SpMat ℝ) (m : Nat → Nat → Option ℝ) (h : MatRep n A m) (hup : ∀ r c, r < n → r < c → m r c = none)
    (hbig : ∀ r c x, r < n → m r c = some x → tiny x = false) (i : Nat) (hi : i ≤ n) :
    ∃ B, mirrorRows A i = some B ∧ MatRep n B (fun r c => if r < c ∧ c < i then m c r else m r c) := by
  induction i with
  | zero => exact ⟨A, rfl, h.congr fun r c _ => by rw [if_neg (by omega)]⟩
  | succ i ih =>
    obtain ⟨B, e, hB⟩ := ih (by omega)
    rw [mirrorRows, e]
    simp only
    by_cases h0 : i = 0
    · rw [if_pos h0]
      exact ⟨B, rfl, hB.congr fun r c _ => by rw [if_neg (by omega), if_neg (by omega)]⟩
    · rw [if_neg h0]
      obtain ⟨v, ev, hv⟩ := hB i (by omega)
      have hrow : (fun c => if i < c ∧ c < i then m c i else m i c) = m i := by
        funext c; rw [if_neg (by omega)]
      have hv : SpRep v (m i) := by rw [← hrow]; exact hv
      obtain ⟨B', e', h'⟩ := mirrorRow_spec i (by omega) v (m i) hv (fun k hk => hbig i _ _ (by omega) (hv.sound k hk)) v.num 0 (by omega) B _ hB (fun r hr => by
        rw [if_neg (by omega), if_neg (by rintro ⟨k, hk, -⟩; omega)]
        exact hup r i (by omega) hr)
      simp only [ev]
      refine ⟨B', e', h'.congr fun r c _ => ?_⟩
      by_cases hc : r < i ∧ c = i
      · rw [if_pos hc, if_pos (by omega), hc.2]
      · rw [if_neg hc]
        by_cases hc2 : r < c ∧ c < i
        · rw [if_pos hc2, if_pos (by omega)]
        · rw [if_neg hc2, if_neg (by omega)]

theorem abs_lt_tiny {x : ℝ} : tiny x = true ↔ |x| < 1e-12 := by unfold tiny; simp

theorem valueAt_stored (x : ℝ) : |x - (stored x).getD 0| < 1e-12 ∧ (tiny x = false → (stored x).getD 0 = x) := by
  unfold stored
  split
  · rename_i h
    refine ⟨by simpa using abs_lt_tiny.1 h, fun hc => by rw [h] at hc; simp at hc⟩
  · refine ⟨?_, fun _ => rfl⟩
    show |x - x| < 1e-12
    rw [sub_self, abs_zero]; norm_num

theorem CholInv.pivot {n : Nat} {a m : Nat → Nat → Option ℝ} {i : Nat} (inv : CholInv n a m i) (k : Nat) (hk : k < i) :
    1e-5 ≤ valueAt (m k) k ∧ (∀ x, m k k = some x → tiny x = false) ∧
        valueAt (m k) k * valueAt (m k) k = valueAt (a k) k - ∑ l ∈ range k, valueAt (m k) l * valueAt (m k) l := by
  obtain ⟨hp, hv⟩ := inv.diag k hk
  obtain ⟨h5, ht⟩ := sqrt_not_tiny hp
  have hval : valueAt (m k) k = Real.sqrt (valueAt (a k) k - ∑ l ∈ range k, valueAt (m k) l * valueAt (m k) l) := by
    conv_lhs => unfold valueAt
    rw [hv]; rfl
  refine ⟨by rw [hval]; exact h5, fun x hx => ?_, ?_⟩
  · rw [hv] at hx; rw [← Option.some.inj hx]; exact ht
  · rw [hval]
    exact Real.mul_self_sqrt (le_trans (by norm_num) hp)

theorem choleskyFactor_spec (n : Nat) (A : SpMat ℝ) (a : Nat → Nat → Option ℝ) (h : MatRep n A a) :
    ∃ o, choleskyFactor n A = some o ∧
      (∀ B, o = some B → ∃ m f, CholInv n a m n ∧ MatRep n B f ∧ (∀ i j, i < n → j ≤ i → f i j = m i j) ∧ ∀ i j, j < n → i < j → f i j = m j i) ∧
      (o = none → ∃ k m, k < n ∧ CholInv n a m k ∧ valueAt (a k) k - ∑ l ∈ range k, valueAt (m k) l * valueAt (m k) l < 1e-10) := by
  obtain ⟨o, e, ho, hfail⟩ := cholRows_spec A a h n le_rfl
  unfold choleskyFactor
  rw [e]
  cases o with
  | none => exact ⟨none, rfl, fun B e => by simp at e, fun _ => hfail rfl⟩
  | some A1 =>
    obtain ⟨m, hm, inv⟩ := ho A1 rfl
    obtain ⟨A2, e2, h2⟩ := lowerPart_spec A1 m hm n le_rfl
    obtain ⟨A3, e3, h3⟩ := mirrorRows_spec A2 _ h2 (fun r c hr hrc => by rw [if_pos ⟨hr, hrc⟩]) (fun r c x hr hx => by
      split at hx
      · simp at hx
      · rename_i hrc
        rcases Nat.lt_or_ge c r with hcr | hcr
        · rw [inv.below c r (by omega) hcr hr] at hx
          unfold stored at hx
          split at hx
          · simp at hx
          · rename_i ht; rw [← Option.some.inj hx]; simpa using ht
        · have : c = r := by omega
          rw [this] at hx
          exact (inv.pivot r hr).2.1 x hx) n le_rfl
    simp only [e2, e3]
    refine ⟨some A3, rfl, fun B eB => ?_, by simp⟩
    cases eB
    exact ⟨m, _, inv, h3, fun i j hi hj => by rw [if_neg (by omega), if_neg (by omega)],
        fun i j hj hi => by rw [if_pos ⟨hi, hj⟩, if_neg (by omega)]⟩

/-- **C70.** For every matrix whose row pointers are allocated, `Cholesky_factorization` runs without touching unowned memory.  If it
returns `true`, the matrix is stored in both triangles, its diagonal is at least `1e-5`, and the product `L Lᵀ` of the lower triangle with
its transpose reproduces the lower triangle of the input: exactly on the diagonal, and within `1e-12` times the diagonal entry elsewhere
(exactly where no value was dropped as negligible). -/
theorem C70_cholesky_factorization (n : Nat) (A : SpMat ℝ) (a : Nat → Nat → Option ℝ) (h : MatRep n A a) :
    ∃ o, choleskyFactor n A = some o ∧ ∀ B, o = some B → ∃ m, MatRep n B m ∧
      (∀ i j, i < n → j < n → valueAt (m i) j = valueAt (m j) i) ∧
      (∀ i, i < n → 1e-5 ≤ valueAt (m i) i) ∧
      (∀ i, i < n → ∑ l ∈ range n, lower m i l * lower m i l = valueAt (a i) i) ∧
      (∀ i j, j < i → i < n → |valueAt (a i) j - ∑ l ∈ range n, lower m i l * lower m j l| < 1e-12 * valueAt (m j) j) ∧
      (∀ i j, j < i → i < n → valueAt (m i) j ≠ 0 → ∑ l ∈ range n, lower m i l * lower m j l = valueAt (a i) j) := by
  obtain ⟨o, e, ho, -⟩ := choleskyFactor_spec n A a h
  refine ⟨o, e, fun B eB => ?_⟩
  · obtain ⟨m, f, inv, hf, low, up⟩ := ho B eB
    have dg := fun k (hk : k < n) => inv.pivot k hk
    refine ⟨f, hf, ?_⟩
    have lowv : ∀ i j, i < n → j ≤ i → valueAt (f i) j = valueAt (m i) j := fun i j hi hj => by unfold valueAt; rw [low i j hi hj]
    have upv : ∀ i j, j < n → i < j → valueAt (f i) j = valueAt (m j) i := fun i j hj hi => by unfold valueAt; rw [up i j hj hi]
    have sums : ∀ i j, j ≤ i → i < n → ∑ l ∈ range n, lower f i l * lower f j l =
        (∑ l ∈ range j, valueAt (m j) l * valueAt (m i) l) + valueAt (m i) j * valueAt (m j) j := by
      intro i j hji hi
      have : range n = range (j + 1) ∪ (Ico (j + 1) n) := by
        ext l; simp only [mem_range, mem_union, mem_Ico]; omega
      rw [this, sum_union, sum_range_succ, sum_eq_zero (s := Ico (j + 1) n), add_zero]
      · congr 1
        · refine sum_congr rfl fun l hl => ?_
          have := mem_range.1 hl
          unfold lower
          rw [if_pos (by omega), if_pos (by omega), lowv i l hi (by omega), lowv j l (by omega) (by omega), mul_comm]
        · unfold lower
          rw [if_pos hji, if_pos le_rfl, lowv i j hi hji, lowv j j (by omega) le_rfl]
      · intro l hl
        have := mem_Ico.1 hl
        have : lower f j l = 0 := by unfold lower; rw [if_neg (by omega)]
        rw [this, mul_zero]
      · rw [Finset.disjoint_left]
        intro l hl hl'
        have h1 := mem_range.1 hl
        have h2 := mem_Ico.1 hl'
        omega
    refine ⟨fun i j hi hj => ?_, fun i hi => ?_, fun i hi => ?_, fun i j hji hi => ?_, fun i j hji hi hne => ?_⟩
    · rcases Nat.lt_trichotomy i j with hlt | heq | hgt
      · rw [upv i j hj hlt, lowv j i hj hlt.le]
      · rw [heq]
      · rw [lowv i j hi hgt.le, upv j i hi hgt]
    · rw [lowv i i hi le_rfl]; exact (dg i hi).1
    · rw [sums i i le_rfl hi, (dg i hi).2.2]; ring
    · rw [sums i j hji.le hi, lowv j j (by omega) le_rfl]
      have hpos : 0 < valueAt (m j) j := lt_of_lt_of_le (by norm_num) (dg j (by omega)).1
      have hb := inv.below j i (by omega) hji hi
      have := (valueAt_stored ((valueAt (a i) j - ∑ l ∈ range j, valueAt (m j) l * valueAt (m i) l) / valueAt (m j) j)).1
      rw [← hb] at this
      have hval : (m i j).getD 0 = valueAt (m i) j := rfl
      rw [hval] at this
      have hre : valueAt (a i) j - (∑ l ∈ range j, valueAt (m j) l * valueAt (m i) l + valueAt (m i) j * valueAt (m j) j) =
          ((valueAt (a i) j - ∑ l ∈ range j, valueAt (m j) l * valueAt (m i) l) / valueAt (m j) j - valueAt (m i) j) * valueAt (m j) j := by
        field_simp; ring
      rw [hre, abs_mul, abs_of_pos hpos]
      exact mul_lt_mul_of_pos_right this hpos
    · rw [sums i j hji.le hi]
      have hpos : 0 < valueAt (m j) j := lt_of_lt_of_le (by norm_num) (dg j (by omega)).1
      have hb := inv.below j i (by omega) hji hi
      rw [lowv i j hi hji.le] at hne
      have hnt : tiny ((valueAt (a i) j - ∑ l ∈ range j, valueAt (m j) l * valueAt (m i) l) / valueAt (m j) j) = false := by
        by_contra hc
        apply hne
        unfold valueAt
        rw [hb, stored, if_pos (by simpa using hc)]; rfl
      have := (valueAt_stored ((valueAt (a i) j - ∑ l ∈ range j, valueAt (m j) l * valueAt (m i) l) / valueAt (m j) j)).2 hnt
      rw [← hb] at this
      have hval : (m i j).getD 0 = valueAt (m i) j := rfl
      rw [hval] at this
      rw [this]
      field_simp; ring

/-- **C47 and C70 together.** A successful factorisation followed by the solver yields `x` with `L Lᵀ x = b`, where `L Lᵀ` is the input matrix
up to the entries dropped as negligible. -/
theorem C47_factor_then_solve (n : Nat) (hn : 0 < n) (A B : SpMat ℝ) (a : Nat → Nat → Option ℝ) (h : MatRep n A a) (hB : choleskyFactor n A = some (some B))
    (b : Nat → ℝ) :
    ∃ (P : Nat → Nat → ℝ) (x : Nat → Option ℝ) (g : Nat → ℝ), choleskySolve B n b = some x ∧ (∀ k, k < n → x k = some (g k)) ∧
      (∀ i, i < n → ∑ k ∈ range n, P i k * g k = b i) ∧ (∀ i j, P i j = P j i) ∧ (∀ i, i < n → P i i = valueAt (a i) i) ∧
      ∀ i j, j < i → i < n → |valueAt (a i) j - P i j| < 1e-12 * Real.sqrt (valueAt (a j) j) := by
  obtain ⟨o, e, ho⟩ := C70_cholesky_factorization n A a h
  rw [hB] at e
  cases e
  obtain ⟨m, hm, hsym, hdg, hdiag, hoff, -⟩ := ho B rfl
  obtain ⟨x, g, ex, hx, hs⟩ := C47_cholesky_solver n hn B m (fun r hr => hm.ptr hr) hsym (fun i hi => by have := hdg i hi; intro hc; rw [hc] at this; norm_num at this) b
  refine ⟨fun i j => ∑ l ∈ range n, lower m i l * lower m j l, x, g, ex, hx, hs, fun i j => sum_congr rfl fun l _ => mul_comm _ _, hdiag,
    fun i j hji hi => lt_of_lt_of_le (hoff i j hji hi) ?_⟩
  refine mul_le_mul_of_nonneg_left ?_ (by norm_num)
  apply Real.le_sqrt_of_sq_le
  rw [← hdiag j (by omega), sq]
  have hjj : lower m j j = valueAt (m j) j := by unfold lower; rw [if_pos le_rfl]
  rw [← hjj]
  exact single_le_sum (f := fun l => lower m j l * lower m j l) (fun l _ => mul_self_nonneg _) (mem_range.2 (by omega))

/-! ### The factorisation finds the factor -/

/-- If the input is `L Lᵀ`, the columns computed so far are those of `L`. -/
theorem CholInv.unique {n : Nat} {a m : Nat → Nat → Option ℝ} {i : Nat} (inv : CholInv n a m i) (hin : i ≤ n) (L : Nat → Nat → ℝ)
    (ha : ∀ r c, c ≤ r → r < n → valueAt (a r) c = ∑ l ∈ range (c + 1), L r l * L c l) (hd : ∀ c, c < n → 0 < L c c)
    (hL : ∀ r c, c < r → r < n → L r c = 0 ∨ 1e-12 ≤ |L r c|) (c r : Nat) (hc : c < i) (hcr : c ≤ r) (hr : r < n) : valueAt (m r) c = L r c := by
  induction c using Nat.strong_induction_on generalizing r with
  | _ c ih =>
    have hsum : ∀ r, c ≤ r → r < n → ∑ l ∈ range c, valueAt (m c) l * valueAt (m r) l = ∑ l ∈ range c, L r l * L c l := by
      intro r hcr hr
      refine sum_congr rfl fun l hl => ?_
      have := mem_range.1 hl
      rw [ih l this c (by omega) (by omega) (by omega), ih l this r (by omega) (by omega) hr, mul_comm]
    have hdiag : valueAt (m c) c = L c c := by
      have h1 := (inv.diag c hc).2
      rw [hsum c le_rfl (by omega), ha c c le_rfl (by omega), sum_range_succ, add_sub_cancel_left, Real.sqrt_mul_self (hd c (by omega)).le] at h1
      unfold valueAt; rw [h1]; rfl
    rcases Nat.eq_or_lt_of_le hcr with e | hlt
    · rw [← e]; exact hdiag
    · have h1 := inv.below c r hc hlt hr
      rw [hsum r hcr hr, ha r c hcr hr, sum_range_succ, add_sub_cancel_left, hdiag, mul_div_assoc, div_self (hd c (by omega)).ne', mul_one] at h1
      unfold valueAt; rw [h1]
      have h2 := valueAt_stored (L r c)
      rcases hL r c hlt hr with h0 | hbig
      · unfold stored
        split
        · rw [h0]; rfl
        · rfl
      · exact h2.2 (by unfold tiny; rw [decide_eq_false_iff_not]; exact not_lt.2 hbig)

/-- **C70, completeness.** If the lower triangle of the input is that of `L Lᵀ`, with diagonal entries at least `1e-5` and no other entry
of `L` nonzero and below `1e-12`, the function returns `true` and the lower triangle it leaves is exactly `L`. -/
theorem C70_finds_the_factor (n : Nat) (A : SpMat ℝ) (a : Nat → Nat → Option ℝ) (h : MatRep n A a) (L : Nat → Nat → ℝ)
    (ha : ∀ r c, c ≤ r → r < n → valueAt (a r) c = ∑ l ∈ range (c + 1), L r l * L c l) (hd : ∀ c, c < n → 1e-5 ≤ L c c)
    (hL : ∀ r c, c < r → r < n → L r c = 0 ∨ 1e-12 ≤ |L r c|) :
    ∃ B m, choleskyFactor n A = some (some B) ∧ MatRep n B m ∧ ∀ r c, c ≤ r → r < n → valueAt (m r) c = L r c ∧ valueAt (m c) r = L r c := by
  have hd0 : ∀ c, c < n → 0 < L c c := fun c hc => lt_of_lt_of_le (by norm_num) (hd c hc)
  obtain ⟨o, e, ho, hfail⟩ := choleskyFactor_spec n A a h
  cases o with
  | none =>
    exfalso
    obtain ⟨k, m, hk, inv, hlt⟩ := hfail rfl
    have hsum : ∑ l ∈ range k, valueAt (m k) l * valueAt (m k) l = ∑ l ∈ range k, L k l * L k l :=
      sum_congr rfl fun l hl => by
        have := mem_range.1 hl
        rw [inv.unique hk.le L ha hd0 hL l k this (by omega) hk]
    rw [hsum, ha k k le_rfl hk, sum_range_succ, add_sub_cancel_left] at hlt
    have := hd k hk
    have h2 : (1e-5 : ℝ) * 1e-5 ≤ L k k * L k k := mul_self_le_mul_self (by norm_num) this
    norm_num at h2 hlt
    linarith
  | some B =>
    obtain ⟨m, f, inv, hf, low, up⟩ := ho B rfl
    refine ⟨B, f, e, hf, fun r c hcr hr => ?_⟩
    have hm := inv.unique le_rfl L ha hd0 hL c r (by omega) hcr hr
    have h1 : valueAt (f r) c = L r c := by rw [← hm]; unfold valueAt; rw [low r c hr hcr]
    refine ⟨h1, ?_⟩
    rcases Nat.eq_or_lt_of_le hcr with e | hlt
    · subst e; exact h1
    · rw [← hm]; unfold valueAt; rw [up c r hr hlt]

/-- A row given by a dense vector. -/
noncomputable def denseRow (n : Nat) (x : Nat → ℝ) : SpVec ℝ := { cap := n, num := n, idx := id, val := x }

theorem denseRow_rep (n : Nat) (hn : 0 < n) (x : Nat → ℝ) : SpRep (denseRow n x) fun c => if c < n then some (x c) else none :=
  ⟨le_rfl, hn, fun i j hij _ => hij, fun i hi => by have hi : i < n := hi; simp [denseRow, hi], fun r y hr => by
    by_cases hrn : r < n
    · exact ⟨r, hrn, rfl⟩
    · rw [if_neg hrn] at hr; simp at hr⟩

-- the matrix with rows (4, 2) and (2, 5) is L Lᵀ for L = (2; 1, 2)
example : ∃ B m, choleskyFactor 2 (fun r => some (denseRow 2 fun c => if r = 0 ∧ c = 0 then 4 else if r = 1 ∧ c = 1 then 5 else 2)) = some (some B) ∧
    MatRep 2 B m ∧ valueAt (m 0) 0 = 2 ∧ valueAt (m 1) 0 = 1 ∧ valueAt (m 0) 1 = 1 ∧ valueAt (m 1) 1 = 2 := by
  obtain ⟨B, m, e, hB, hm⟩ := C70_finds_the_factor 2 (fun r => some (denseRow 2 fun c => if r = 0 ∧ c = 0 then 4 else if r = 1 ∧ c = 1 then 5 else 2))
    (fun r c => if c < 2 then some (if r = 0 ∧ c = 0 then 4 else if r = 1 ∧ c = 1 then 5 else 2) else none)
    (fun r _ => ⟨_, rfl, denseRow_rep 2 (by omega) _⟩) (fun r c => if r = 1 ∧ c = 0 then 1 else 2)
    (fun r c hcr hr => by
      have hr' : r = 0 ∨ r = 1 := by omega
      have hc' : c = 0 ∨ c = 1 := by omega
      rcases hr' with rfl | rfl <;> rcases hc' with rfl | rfl <;> first | omega | (simp [valueAt, sum_range_succ]; try norm_num))
    (fun c hc => by split_ifs <;> norm_num)
    (fun r c hcr hr => by right; split_ifs <;> norm_num)
  refine ⟨B, m, e, hB, ?_, ?_, ?_, ?_⟩
  · simpa using (hm 0 0 le_rfl (by omega)).1
  · simpa using (hm 1 0 (by omega) (by omega)).1
  · simpa using (hm 1 0 (by omega) (by omega)).2
  · simpa using (hm 1 1 le_rfl (by omega)).1

end VoroCrust
