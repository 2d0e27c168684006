import Verif.Props.Cholesky

/-! # Property C97: adding rows to a Cholesky factorisation -/

namespace VoroCrust

open Finset Classical

/-! ## Specification -/

/-- A factor with `n` rows as the functions of the solver keep it: both triangles are stored, nothing is outside, and the diagonal is not small. -/
structure IsFactor (n : Nat) (C : SpMat ℝ) (m : Nat → Nat → Option ℝ) : Prop where
  rep : MatRep n C m
  inside : ∀ r c, r < n → n ≤ c → m r c = none
  symm : ∀ i j, i < n → j < n → m i j = m j i
  diag : ∀ i, i < n → 1e-5 ≤ valueAt (m i) i

/-! ## Lemmas -/

theorem setMat_rows {n : Nat} {A : SpMat ℝ} {m : Nat → Nat → Option ℝ} (h : RowsHold n A m) (row col : Nat) (x : ℝ) (hr : row < n) :
    ∃ A', setMat A row col x = some A' ∧ RowsHold n A' (fun r c => if r = row ∧ c = col then stored x else m r c) := by
  obtain ⟨v', e', h', -⟩ := setEntry_rep tiny col x (A row) (m row) (h row hr)
  refine ⟨upd A row v', by rw [setMat, e']; rfl, fun r hrn => ?_⟩
  by_cases hrr : r = row
  · subst hrr
    have e : upd A r v' r = v' := by simp [upd]
    rw [e]
    convert h' using 1
    funext c
    unfold writeMap stored
    by_cases hc : c = col
    · rw [hc, Function.update_self]; simp
    · rw [Function.update_of_ne hc]; simp [hc]
  · have e : upd A row v' r = A r := by simp [upd, hrr]
    rw [e]
    simpa [hrr] using h r hrn

theorem RowsHold.congr {n : Nat} {A : SpMat ℝ} {m m' : Nat → Nat → Option ℝ} (h : RowsHold n A m) (e : ∀ r c, r < n → m r c = m' r c) : RowsHold n A m' := fun r hr => by
  rw [← show m r = m' r from funext fun c => e r c hr]
  exact h r hr

/-- Rows with an entry are not null pointers. -/
theorem RowsHold.mat {n : Nat} {A : SpMat ℝ} {m : Nat → Nat → Option ℝ} (h : RowsHold n A m) (hne : ∀ r, r < n → ∃ c x, m r c = some x) : MatRep n A m := by
  intro r hr
  have h' := h r hr
  cases e : A r with
  | none =>
    obtain ⟨c, x, hx⟩ := hne r hr
    rw [e] at h'
    have h' : ∀ c, m r c = none := h'
    rw [h' c] at hx; simp at hx
  | some v => rw [e] at h'; exact ⟨v, rfl, h'⟩

theorem rowSum_spec {s : SpVec ℝ} {i : Nat} (hi : 0 < i) (row : Option (SpVec ℝ)) (g : Nat → ℝ) (hg : ∀ c, c < i → getEntry c row = some (g c)) (n j : Nat) (hn : j + n = s.num) (acc : ℝ) :
    rowSum row i s n j acc = some (acc + ∑ k ∈ Ico j s.num, if 0 ≤ s.idx k ∧ s.idx k ≤ i - 1 then s.val k * g (s.idx k) else 0) := by
  induction n generalizing j acc with
  | zero => rw [rowSum, show j = s.num by omega]; simp
  | succ n ih =>
    rw [rowSum, sum_eq_sum_Ico_succ_bot (show j < s.num by omega)]
    by_cases h : s.idx j < i
    · rw [if_pos h, hg _ h]
      simp only
      rw [ih (j + 1) (by omega), if_pos (by omega)]
      congr 1; ring
    · rw [if_neg h, ih (j + 1) (by omega), if_neg (by omega)]
      congr 1; ring

theorem sqSum_spec (s : SpVec ℝ) (n j : Nat) (hn : j + n = s.num) (acc : ℝ) : sqSum s n j acc = acc + ∑ k ∈ Ico j s.num, s.val k * s.val k := by
  induction n generalizing j acc with
  | zero => rw [sqSum, show j = s.num by omega]; simp
  | succ n ih => rw [sqSum, ih (j + 1) (by omega), sum_eq_sum_Ico_succ_bot (show j < s.num by omega)]; ring

/-- What `addSolve` has computed after `i` rows. -/
structure SolveInv (m : Nat → Nat → Option ℝ) (a s : Nat → Option ℝ) (i : Nat) : Prop where
  entry : ∀ k, k < i → s k = stored ((valueAt a k - ∑ l ∈ range k, valueAt s l * valueAt (m k) l) / valueAt (m k) k)
  rest : ∀ k, i ≤ k → s k = none

theorem addSolve_spec {n : Nat} {C : SpMat ℝ} {m : Nat → Nat → Option ℝ} (h : MatRep n C m) (hd : ∀ i, i < n → valueAt (m i) i ≠ 0) {v : SpVec ℝ} {a : Nat → Option ℝ} (ha : SpRep v a)
    (i : Nat) (hi : i ≤ n) : ∃ p s, addSolve C (some v) i = some p ∧ PtrRep p s ∧ SolveInv m a s i := by
  induction i with
  | zero => exact ⟨none, fun _ => none, rfl, fun _ => rfl, fun k hk => absurd hk (by omega), fun _ _ => rfl⟩
  | succ i ih =>
    obtain ⟨p, s, e, hp, inv⟩ := ih (by omega)
    have hsum : ptrSum (C i) i p = some (∑ l ∈ range i, valueAt s l * valueAt (m i) l) := by
      cases p with
      | none =>
        have hp : ∀ r, s r = none := hp
        rw [sum_eq_zero fun l _ => by rw [valueAt, hp]; simp]; rfl
      | some w =>
        have hp : SpRep w s := hp
        by_cases h0 : 0 < i
        · rw [ptrSum, rowSum_spec h0 _ (valueAt (m i)) (fun c _ => h.get (by omega) c) w.num 0 (by omega), sum_entries hp, sum_Icc_zero _ _ h0, zero_add]
        · have hnum : w.num = 0 := by
            by_contra hne
            have := hp.sound 0 (by omega)
            rw [inv.rest _ (by omega)] at this
            simp at this
          rw [ptrSum, hnum, show i = 0 by omega]
          simp [rowSum]
    set q := (valueAt a i - ∑ l ∈ range i, valueAt s l * valueAt (m i) l) / valueAt (m i) i with hq
    obtain ⟨p', e', h', -⟩ := setEntry_rep tiny i q p s hp
    refine ⟨p', _, ?_, h', fun k hk => ?_, fun k hk => ?_⟩
    · rw [addSolve, e]
      simp only
      rw [hsum, getEntry_rep i v a ha, h.get (by omega) i]
      simp only [divDiag]
      rw [if_neg (hd i (by omega))]
      exact e'
    · have hv : ∀ l, l < i → valueAt (writeMap tiny i q s) l = valueAt s l := fun l hl => by
        unfold valueAt writeMap
        rw [Function.update_of_ne (by omega)]
      rcases Nat.lt_succ_iff_lt_or_eq.1 hk with hk | rfl
      · rw [sum_congr rfl fun l hl => show _ = valueAt s l * valueAt (m k) l by rw [hv l (by have := mem_range.1 hl; omega)], ← inv.entry k hk]
        unfold writeMap
        rw [Function.update_of_ne (by omega)]
      · rw [sum_congr rfl fun l hl => show _ = valueAt s l * valueAt (m k) l by rw [hv l (mem_range.1 hl)], ← hq]
        unfold writeMap stored
        rw [Function.update_self]
    · unfold writeMap
      rw [Function.update_of_ne (by omega)]
      exact inv.rest k (by omega)

theorem borderEntries_spec {n : Nat} {v : SpVec ℝ} {s : Nat → Option ℝ} (hv : SpRep v s) (hlt : ∀ k, n ≤ k → s k = none) (hnt : ∀ k x, s k = some x → tiny x = false) (cnt j : Nat) (hj : j + cnt = v.num)
    (C : SpMat ℝ) (m : Nat → Nat → Option ℝ) (h : RowsHold (n + 1) C m) : ∃ C', borderEntries n v cnt j C = some C' ∧
      RowsHold (n + 1) C' fun r c => if c = n ∧ ∃ k, j ≤ k ∧ k < v.num ∧ v.idx k = r then s r else if r = n ∧ ∃ k, j ≤ k ∧ k < v.num ∧ v.idx k = c then s c else m r c := by
  induction cnt generalizing j C m with
  | zero =>
    refine ⟨C, rfl, h.congr fun r c _ => ?_⟩
    rw [if_neg, if_neg]
    · rintro ⟨-, k, h1, h2, -⟩; omega
    · rintro ⟨-, k, h1, h2, -⟩; omega
  | succ cnt ih =>
    have hs := hv.sound j (by omega)
    have hin : v.idx j < n := by
      by_contra hc
      rw [hlt _ (by omega)] at hs
      simp at hs
    have hst : stored (v.val j) = s (v.idx j) := by rw [hs, stored, hnt _ _ hs]; rfl
    obtain ⟨C1, e1, h1⟩ := setMat_rows h (v.idx j) n (v.val j) (by omega)
    obtain ⟨C2, e2, h2⟩ := setMat_rows h1 n (v.idx j) (v.val j) (by omega)
    obtain ⟨C3, e3, h3⟩ := ih (j + 1) (by omega) C2 _ h2
    refine ⟨C3, by rw [borderEntries, e1]; simp only; rw [e2]; exact e3, h3.congr fun r c hr => ?_⟩
    have hex : ∀ x, (∃ k, j ≤ k ∧ k < v.num ∧ v.idx k = x) ↔ v.idx j = x ∨ ∃ k, j + 1 ≤ k ∧ k < v.num ∧ v.idx k = x := fun x => by
      constructor
      · rintro ⟨k, a1, a2, a3⟩
        by_cases hk : k = j
        · subst hk; exact .inl a3
        · exact .inr ⟨k, by omega, a2, a3⟩
      · rintro (a | ⟨k, a1, a2, a3⟩)
        · exact ⟨j, le_rfl, by omega, a⟩
        · exact ⟨k, by omega, a2, a3⟩
    rw [hex r, hex c]
    by_cases hc : c = n ∧ ∃ k, j + 1 ≤ k ∧ k < v.num ∧ v.idx k = r
    · rw [if_pos hc, if_pos ⟨hc.1, .inr hc.2⟩]
    · rw [if_neg hc]
      by_cases hr' : r = n ∧ ∃ k, j + 1 ≤ k ∧ k < v.num ∧ v.idx k = c
      · obtain ⟨hrn, k, a1, a2, a3⟩ := hr'
        have hcn : c < n := by
          by_contra hcc
          have := hv.sound k a2
          rw [a3, hlt c (by omega)] at this
          simp at this
        rw [if_pos ⟨hrn, k, a1, a2, a3⟩, if_neg (by omega), if_pos ⟨hrn, .inr ⟨k, a1, a2, a3⟩⟩]
      · rw [if_neg hr']
        by_cases g1 : r = n ∧ c = v.idx j
        · rw [if_pos g1, if_neg (by omega), if_pos ⟨g1.1, .inl g1.2.symm⟩, hst, g1.2]
        · rw [if_neg g1]
          by_cases g2 : r = v.idx j ∧ c = n
          · rw [if_pos g2, if_pos ⟨g2.2, .inl g2.1.symm⟩, hst, g2.1]
          · rw [if_neg g2, if_neg, if_neg]
            · rintro ⟨a1, a2 | a2⟩
              · exact g1 ⟨a1, a2.symm⟩
              · exact hr' ⟨a1, a2⟩
            · rintro ⟨a1, a2 | a2⟩
              · exact g2 ⟨a2.symm, a1⟩
              · exact hc ⟨a1, a2⟩

/-- What `addRow` computes. -/
theorem addRow_spec {n : Nat} {C : SpMat ℝ} {m : Nat → Nat → Option ℝ} (h : IsFactor n C m) {v : SpVec ℝ} {a : Nat → Option ℝ} (ha : SpRep v a) :
    ∃ s o, SolveInv m a s n ∧ addRow n C (some v) = some o ∧ (o = none ↔ valueAt a n - ∑ l ∈ range n, valueAt s l * valueAt s l < 1e-10) ∧
      ∀ C', o = some C' → ∃ m', IsFactor (n + 1) C' m' ∧ (∀ i j, i < n → j < n → m' i j = m i j) ∧ (∀ j, j < n → m' n j = s j) ∧
        m' n n = some (Real.sqrt (valueAt a n - ∑ l ∈ range n, valueAt s l * valueAt s l)) := by
  have hne : ∀ i, i < n → valueAt (m i) i ≠ 0 := fun i hi e => by have := h.diag i hi; rw [e] at this; norm_num at this
  obtain ⟨p, s, e, hp, inv⟩ := addSolve_spec h.rep hne ha n le_rfl
  have hnt : ∀ k x, s k = some x → tiny x = false := fun k x hx => by
    by_cases hk : k < n
    · rw [inv.entry k hk, stored] at hx
      split at hx
      · simp at hx
      · rename_i ht; rw [← Option.some.inj hx]; simpa using ht
    · rw [inv.rest k (by omega)] at hx; simp at hx
  have hdot : ptrSq p = ∑ l ∈ range n, valueAt s l * valueAt s l := by
    cases p with
    | none =>
      have hp : ∀ r, s r = none := hp
      rw [sum_eq_zero fun l _ => by rw [valueAt, hp]; simp]; rfl
    | some w =>
      have hp : SpRep w s := hp
      rw [ptrSq, sqSum_spec w w.num 0 (by omega), zero_add]
      by_cases h0 : 0 < n
      · rw [← sum_Icc_zero _ _ h0, ← sum_entries hp]
        refine sum_congr rfl fun k hk => ?_
        have hs := hp.sound k (mem_Ico.1 hk).2
        have hin : w.idx k < n := by
          by_contra hc
          rw [inv.rest _ (by omega)] at hs
          simp at hs
        rw [if_pos (by omega)]
        unfold valueAt
        rw [hs]; rfl
      · rw [show n = 0 by omega, range_zero, sum_empty]
        refine sum_eq_zero fun k hk => ?_
        have hs := hp.sound k (mem_Ico.1 hk).2
        rw [inv.rest _ (by omega)] at hs
        simp at hs
  set D := valueAt a n - ∑ l ∈ range n, valueAt s l * valueAt s l with hD
  have h0 : RowsHold (n + 1) (upd C n none) fun r c => if r = n then none else m r c := fun r hr => by
    by_cases hrn : r = n
    · subst hrn
      rw [show upd C r none r = none by simp [upd]]
      intro c; simp
    · rw [show upd C n none r = C r by simp [upd, hrn]]
      simpa [hrn] using h.rep.ptr (show r < n by omega)
  have hent : ∃ C1, borderPtr n (upd C n none) p = some C1 ∧
      RowsHold (n + 1) C1 fun r c => if c = n then (if r = n then none else s r) else if r = n then s c else m r c := by
    cases p with
    | none =>
      have hp : ∀ r, s r = none := hp
      refine ⟨_, rfl, h0.congr fun r c hr => ?_⟩
      by_cases hc : c = n
      · rw [if_pos hc]
        by_cases hrn : r = n
        · rw [if_pos hrn, if_pos hrn]
        · rw [if_neg hrn, if_neg hrn, hp, hc, h.inside r n (by omega) le_rfl]
      · rw [if_neg hc, hp]
    | some w =>
      have hp : SpRep w s := hp
      obtain ⟨C1, e1, h1⟩ := borderEntries_spec hp inv.rest hnt w.num 0 (by omega) _ _ h0
      refine ⟨C1, e1, h1.congr fun r c hr => ?_⟩
      have hex : ∀ x, (¬ ∃ k, 0 ≤ k ∧ k < w.num ∧ w.idx k = x) → s x = none := fun x hx => by
        cases hs : s x with
        | none => rfl
        | some y =>
          obtain ⟨k, a1, a2⟩ := hp.complete x y hs
          exact absurd ⟨k, by omega, a1, a2⟩ hx
      have hlt : ∀ x, (∃ k, 0 ≤ k ∧ k < w.num ∧ w.idx k = x) → x < n := fun x ⟨k, _, a1, a2⟩ => by
        by_contra hc
        have := hp.sound k a1
        rw [a2, inv.rest x (by omega)] at this
        simp at this
      by_cases hc : c = n
      · rw [if_pos hc]
        by_cases hx : ∃ k, 0 ≤ k ∧ k < w.num ∧ w.idx k = r
        · have := hlt r hx
          rw [if_pos ⟨hc, hx⟩, if_neg (by omega)]
        · rw [if_neg (fun q => hx q.2), if_neg (fun q => by have := hlt c q.2; omega)]
          by_cases hrn : r = n
          · rw [if_pos hrn, if_pos hrn]
          · rw [if_neg hrn, if_neg hrn, hc, h.inside r n (by omega) le_rfl, hex r hx]
      · rw [if_neg hc, if_neg (fun q => hc q.1)]
        by_cases hrn : r = n
        · by_cases hx : ∃ k, 0 ≤ k ∧ k < w.num ∧ w.idx k = c
          · rw [if_pos ⟨hrn, hx⟩, if_pos hrn]
          · rw [if_neg (fun q => hx q.2), if_pos hrn, if_pos hrn, hex c hx]
        · rw [if_neg (fun q => hrn q.1), if_neg hrn, if_neg hrn]
  have hrun : addRow n C (some v) = if D < 1e-10 then some none else
      match borderPtr n (upd C n none) p with
      | none => none
      | some C1 => (setMat C1 n n (Real.sqrt D)).map some := by
    unfold addRow
    rw [e, getEntry_rep n v a ha]
    simp only
    rw [hdot]
    rfl
  obtain ⟨C1, e1, h1⟩ := hent
  by_cases hlt : D < 1e-10
  · exact ⟨s, none, inv, by rw [hrun, if_pos hlt], ⟨fun _ => hlt, fun _ => rfl⟩, fun C' e => by simp at e⟩
  · obtain ⟨h5, ht⟩ := sqrt_not_tiny (not_lt.1 hlt)
    obtain ⟨C2, e2, h2⟩ := setMat_rows h1 n n (Real.sqrt D) (by omega)
    have hst : stored (Real.sqrt D) = some (Real.sqrt D) := by rw [stored, ht]; rfl
    refine ⟨s, some C2, inv, by rw [hrun, if_neg hlt, e1]; simp only; rw [e2]; rfl, ⟨fun e => by simp at e, fun e => absurd e hlt⟩, fun C' eC => ?_⟩
    cases eC
    refine ⟨_, ⟨h2.mat fun r hr => ?_, fun r c hr hc => ?_, fun i j hi hj => ?_, fun i hi => ?_⟩, fun i j hi hj => ?_, fun j hj => ?_, ?_⟩
    · by_cases hrn : r = n
      · exact ⟨n, Real.sqrt D, by rw [if_pos ⟨hrn, rfl⟩, hst]⟩
      · refine ⟨r, (m r r).getD 0, ?_⟩
        rw [if_neg (by omega), if_neg hrn, if_neg hrn]
        have := hne r (by omega)
        unfold valueAt at this
        cases hm : m r r with
        | none => rw [hm] at this; exact absurd rfl this
        | some x => rfl
    · rw [if_neg (by omega), if_neg (by omega)]
      by_cases hrn : r = n
      · rw [if_pos hrn, inv.rest c (by omega)]
      · rw [if_neg hrn, h.inside r c (by omega) (by omega)]
    · by_cases hin : i = n
      · by_cases hjn : j = n
        · rw [hin, hjn]
        · rw [if_neg (by omega), if_neg hjn, if_pos hin, if_neg (by omega), if_pos hin, if_neg hjn]
      · by_cases hjn : j = n
        · rw [if_neg (by omega), if_pos hjn, if_neg hin, if_neg (by omega), if_neg hin, if_pos hjn]
        · rw [if_neg (by omega), if_neg hjn, if_neg hin, if_neg (by omega), if_neg hin, if_neg hjn, h.symm i j (by omega) (by omega)]
    · by_cases hin : i = n
      · simp only [valueAt]; rw [if_pos ⟨hin, hin⟩, hst]; exact h5
      · have := h.diag i (by omega)
        simp only [valueAt] at this ⊢
        rw [if_neg (by omega), if_neg hin, if_neg hin]; exact this
    · rw [if_neg (by omega), if_neg (by omega), if_neg (by omega)]
    · rw [if_neg (by omega), if_neg (by omega), if_pos rfl]
    · rw [if_pos ⟨rfl, rfl⟩, hst]

/-! ## C97 -/

/-- **C97.** Adding a row to a factor stays inside the allocated memory.  On success the factor has one more row, the part it had is unchanged, and the product `L Lᵀ` has the new row of
the matrix as its last row: exactly at the diagonal, within `1e-12` times the diagonal entry elsewhere, and exactly where no entry was dropped as negligible. -/
theorem C97_add_row (n : Nat) (C : SpMat ℝ) (m : Nat → Nat → Option ℝ) (h : IsFactor n C m) (v : SpVec ℝ) (a : Nat → Option ℝ) (ha : SpRep v a) :
    ∃ o, addRow n C (some v) = some o ∧ ∀ C', o = some C' → ∃ m', IsFactor (n + 1) C' m' ∧ (∀ i j, i < n → j < n → m' i j = m i j) ∧
      ∑ l ∈ range (n + 1), lower m' n l * lower m' n l = valueAt a n ∧
      (∀ j, j < n → |valueAt a j - ∑ l ∈ range (n + 1), lower m' n l * lower m' j l| < 1e-12 * valueAt (m j) j) ∧
      ∀ j, j < n → valueAt (m' n) j ≠ 0 → ∑ l ∈ range (n + 1), lower m' n l * lower m' j l = valueAt a j := by
  obtain ⟨s, o, inv, e, hfail, hok⟩ := addRow_spec h ha
  refine ⟨o, e, fun C' eC => ?_⟩
  obtain ⟨m', h', hold, hrow, hdiag⟩ := hok C' eC
  have hD : ¬ valueAt a n - ∑ l ∈ range n, valueAt s l * valueAt s l < 1e-10 := fun hc => by rw [hfail.2 hc] at eC; simp at eC
  have hs : ∀ j, j < n → valueAt (m' n) j = valueAt s j := fun j hj => by unfold valueAt; rw [hrow j hj]
  have hm : ∀ i j, i < n → j < n → valueAt (m' i) j = valueAt (m i) j := fun i j hi hj => by unfold valueAt; rw [hold i j hi hj]
  have hsum : ∀ j, j < n → ∑ l ∈ range (n + 1), lower m' n l * lower m' j l = ∑ l ∈ range j, valueAt s l * valueAt (m j) l + valueAt s j * valueAt (m j) j := fun j hj => by
    rw [← sum_range_add_sum_Ico _ (show j + 1 ≤ n + 1 by omega), sum_range_succ, sum_eq_zero (s := Ico (j + 1) (n + 1)), add_zero]
    · congr 1
      · refine sum_congr rfl fun l hl => ?_
        have := mem_range.1 hl
        unfold lower
        rw [if_pos (by omega), if_pos (by omega), hs l (by omega), hm j l hj (by omega)]
      · unfold lower
        rw [if_pos (by omega), if_pos le_rfl, hs j hj, hm j j hj hj]
    · intro l hl
      have := mem_Ico.1 hl
      rw [show lower m' j l = 0 from if_neg (by omega), mul_zero]
  refine ⟨m', h', hold, ?_, fun j hj => ?_, fun j hj hne => ?_⟩
  · rw [sum_range_succ, show lower m' n n = Real.sqrt (valueAt a n - ∑ l ∈ range n, valueAt s l * valueAt s l) by unfold lower; rw [if_pos le_rfl]; unfold valueAt; rw [hdiag]; rfl,
      Real.mul_self_sqrt (le_trans (by norm_num) (not_lt.1 hD)), sum_congr rfl fun l hl => show _ = valueAt s l * valueAt s l by
        unfold lower; rw [if_pos (by have := mem_range.1 hl; omega), hs l (mem_range.1 hl)]]
    ring
  · have hpos : 0 < valueAt (m j) j := lt_of_lt_of_le (by norm_num) (h.diag j hj)
    have := (valueAt_stored ((valueAt a j - ∑ l ∈ range j, valueAt s l * valueAt (m j) l) / valueAt (m j) j)).1
    rw [← inv.entry j hj, show (s j).getD 0 = valueAt s j from rfl] at this
    rw [hsum j hj, show valueAt a j - (∑ l ∈ range j, valueAt s l * valueAt (m j) l + valueAt s j * valueAt (m j) j) =
      ((valueAt a j - ∑ l ∈ range j, valueAt s l * valueAt (m j) l) / valueAt (m j) j - valueAt s j) * valueAt (m j) j by field_simp; ring, abs_mul, abs_of_pos hpos]
    exact mul_lt_mul_of_pos_right this hpos
  · have hpos : 0 < valueAt (m j) j := lt_of_lt_of_le (by norm_num) (h.diag j hj)
    rw [hs j hj] at hne
    have hnt : tiny ((valueAt a j - ∑ l ∈ range j, valueAt s l * valueAt (m j) l) / valueAt (m j) j) = false := by
      by_contra hc
      apply hne
      unfold valueAt
      rw [inv.entry j hj, stored, if_pos (by simpa using hc)]; rfl
    have := (valueAt_stored ((valueAt a j - ∑ l ∈ range j, valueAt s l * valueAt (m j) l) / valueAt (m j) j)).2 hnt
    rw [← inv.entry j hj, show (s j).getD 0 = valueAt s j from rfl] at this
    rw [hsum j hj, this]
    field_simp; ring

/-- **C97, completeness.** If the new row is that of `L Lᵀ` for the factor extended by a row `x`, `d` with `d ≥ 1e-5` and no entry of `x` nonzero and below `1e-12`, the row is accepted
and the new row of the factor is `x`, `d`. -/
theorem C97_finds_the_row (n : Nat) (C : SpMat ℝ) (m : Nat → Nat → Option ℝ) (h : IsFactor n C m) (v : SpVec ℝ) (a : Nat → Option ℝ) (ha : SpRep v a) (x : Nat → ℝ) (d : ℝ) (hd : 1e-5 ≤ d)
    (hx : ∀ j, j < n → x j = 0 ∨ 1e-12 ≤ |x j|) (h1 : ∀ j, j < n → valueAt a j = ∑ l ∈ range (j + 1), x l * lower m j l) (h2 : valueAt a n = ∑ l ∈ range n, x l * x l + d * d) :
    ∃ C' m', addRow n C (some v) = some (some C') ∧ IsFactor (n + 1) C' m' ∧ (∀ i j, i < n → j < n → m' i j = m i j) ∧ (∀ j, j < n → valueAt (m' n) j = x j) ∧ valueAt (m' n) n = d := by
  obtain ⟨s, o, inv, e, hfail, hok⟩ := addRow_spec h ha
  have hs : ∀ j, j < n → valueAt s j = x j := by
    intro j
    induction j using Nat.strong_induction_on with
    | _ j ih =>
      intro hj
      have hpos : 0 < valueAt (m j) j := lt_of_lt_of_le (by norm_num) (h.diag j hj)
      have hl : ∀ l, l ≤ j → lower m j l = valueAt (m j) l := fun l hl => if_pos hl
      have hq : (valueAt a j - ∑ l ∈ range j, valueAt s l * valueAt (m j) l) / valueAt (m j) j = x j := by
        rw [h1 j hj, sum_range_succ, hl j le_rfl, sum_congr rfl fun l hl' => show x l * lower m j l = valueAt s l * valueAt (m j) l by
          have := mem_range.1 hl'
          rw [ih l this (by omega), hl l this.le]]
        field_simp; ring
      have hent := inv.entry j hj
      rw [hq] at hent
      unfold valueAt
      rw [hent]
      rcases hx j hj with h0 | hbig
      · unfold stored
        split
        · rw [h0]; rfl
        · rfl
      · exact (valueAt_stored (x j)).2 (by unfold tiny; rw [decide_eq_false_iff_not]; exact not_lt.2 hbig)
  have hD : valueAt a n - ∑ l ∈ range n, valueAt s l * valueAt s l = d * d := by
    rw [h2, sum_congr rfl fun l hl => show valueAt s l * valueAt s l = x l * x l by rw [hs l (mem_range.1 hl)]]
    ring
  have hbig : ¬ valueAt a n - ∑ l ∈ range n, valueAt s l * valueAt s l < 1e-10 := by
    rw [hD]
    have h2 : (1e-5 : ℝ) * 1e-5 ≤ d * d := mul_self_le_mul_self (by norm_num) hd
    norm_num at h2 ⊢
    linarith
  cases o with
  | none => exact absurd (hfail.1 rfl) hbig
  | some C' =>
    obtain ⟨m', h', hold, hrow, hdiag⟩ := hok C' rfl
    refine ⟨C', m', e, h', hold, fun j hj => ?_, ?_⟩
    · rw [← hs j hj]; unfold valueAt; rw [hrow j hj]
    · unfold valueAt
      rw [hdiag, hD, Real.sqrt_mul_self (le_trans (by norm_num) hd)]
      rfl

/-! ### Row by row -/

/-- The rows of `A` added one after the other to the empty factor; `some none`: a row was not accepted. -/
noncomputable def addRows (A : SpMat ℝ) : Nat → Option (Option (SpMat ℝ))
  | 0 => some (some fun _ => none)
  | n + 1 =>
    match addRows A n with
    | none => none
    | some none => some none
    | some (some C) => addRow n C (A n)

/-- **C97, row by row.** Adding the rows of a matrix one after the other, beginning with nothing, gives what `Cholesky_factorization` promises for the whole matrix. -/
theorem C97_row_by_row (n : Nat) (A : SpMat ℝ) (a : Nat → Nat → Option ℝ) (h : MatRep n A a) : ∃ o, addRows A n = some o ∧ ∀ C, o = some C → ∃ m, IsFactor n C m ∧
      (∀ i, i < n → ∑ l ∈ range n, lower m i l * lower m i l = valueAt (a i) i) ∧
      (∀ i j, j < i → i < n → |valueAt (a i) j - ∑ l ∈ range n, lower m i l * lower m j l| < 1e-12 * valueAt (m j) j) ∧
      ∀ i j, j < i → i < n → valueAt (m i) j ≠ 0 → ∑ l ∈ range n, lower m i l * lower m j l = valueAt (a i) j := by
  induction n with
  | zero =>
    refine ⟨_, rfl, fun C _ => ⟨fun _ _ => none, ⟨fun r hr => absurd hr (by omega), fun _ _ _ _ => rfl, fun _ _ _ _ => rfl, fun i hi => absurd hi (by omega)⟩, fun i hi => absurd hi (by omega),
      fun i j _ hi => absurd hi (by omega), fun i j _ hi => absurd hi (by omega)⟩⟩
  | succ n ih =>
    obtain ⟨o, e, ho⟩ := ih fun r hr => h r (by omega)
    rw [addRows, e]
    cases o with
    | none => exact ⟨none, rfl, fun C e => by simp at e⟩
    | some C =>
      obtain ⟨m, hm, q1, q2, q3⟩ := ho C rfl
      obtain ⟨v, ev, hv⟩ := h n (by omega)
      obtain ⟨o', e', ho'⟩ := C97_add_row n C m hm v (a n) hv
      refine ⟨o', by simp only; rw [ev, e'], fun C' eC => ?_⟩
      obtain ⟨m', h', hold, p1, p2, p3⟩ := ho' C' eC
      have hval : ∀ i j, i < n → j < n → valueAt (m' i) j = valueAt (m i) j := fun i j hi hj => by unfold valueAt; rw [hold i j hi hj]
      have hs : ∀ i j, i < n → j < n → ∑ l ∈ range (n + 1), lower m' i l * lower m' j l = ∑ l ∈ range n, lower m i l * lower m j l := fun i j hi hj => by
        rw [sum_range_succ, show lower m' i n = 0 from if_neg (by omega), zero_mul, add_zero]
        refine sum_congr rfl fun l hl => ?_
        have hl := mem_range.1 hl
        unfold lower
        rw [hval i l hi hl, hval j l hj hl]
      refine ⟨m', h', fun i hi => ?_, fun i j hji hi => ?_, fun i j hji hi hne => ?_⟩
      · rcases Nat.lt_succ_iff_lt_or_eq.1 hi with hi | rfl
        · rw [hs i i hi hi, q1 i hi]
        · exact p1
      · rw [show valueAt (m' j) j = valueAt (m j) j from hval j j (by omega) (by omega)]
        rcases Nat.lt_succ_iff_lt_or_eq.1 hi with hi | rfl
        · rw [hs i j hi (by omega)]; exact q2 i j hji hi
        · exact p2 j hji
      · rcases Nat.lt_succ_iff_lt_or_eq.1 hi with hi | rfl
        · rw [hs i j hi (by omega)]
          rw [hval i j hi (by omega)] at hne
          exact q3 i j hji hi hne
        · exact p3 j hji hne

/-- **C97, row by row, completeness.** If the lower triangle of the input is that of `L Lᵀ`, with diagonal entries at least `1e-5` and no other entry of `L` nonzero and below `1e-12`,
all rows are accepted and the factor is `L`. -/
theorem C97_row_by_row_finds (n : Nat) (A : SpMat ℝ) (a : Nat → Nat → Option ℝ) (h : MatRep n A a) (L : Nat → Nat → ℝ)
    (ha : ∀ r c, c ≤ r → r < n → valueAt (a r) c = ∑ l ∈ range (c + 1), L r l * L c l) (hd : ∀ c, c < n → 1e-5 ≤ L c c) (hL : ∀ r c, c < r → r < n → L r c = 0 ∨ 1e-12 ≤ |L r c|) :
    ∃ C m, addRows A n = some (some C) ∧ IsFactor n C m ∧ ∀ r c, c ≤ r → r < n → valueAt (m r) c = L r c := by
  induction n with
  | zero => exact ⟨_, fun _ _ => none, rfl, ⟨fun r hr => absurd hr (by omega), fun _ _ _ _ => rfl, fun _ _ _ _ => rfl, fun i hi => absurd hi (by omega)⟩, fun r c _ hr => absurd hr (by omega)⟩
  | succ n ih =>
    obtain ⟨C, m, e, hm, hval⟩ := ih (fun r hr => h r (by omega)) (fun r c hc hr => ha r c hc (by omega)) (fun c hc => hd c (by omega)) fun r c hc hr => hL r c hc (by omega)
    obtain ⟨v, ev, hv⟩ := h n (by omega)
    obtain ⟨C', m', e', h', hold, hrow, hdiag⟩ := C97_finds_the_row n C m hm v (a n) hv (L n) (L n n) (hd n (by omega)) (fun j hj => hL n j hj (by omega))
      (fun j hj => by
        rw [ha n j hj.le (by omega)]
        refine sum_congr rfl fun l hl => ?_
        have hl := mem_range.1 hl
        unfold lower
        rw [if_pos (by omega), hval j l (by omega) hj])
      (by rw [ha n n le_rfl (by omega), sum_range_succ])
    refine ⟨C', m', by rw [addRows, e]; simp only; rw [ev, e'], h', fun r c hc hr => ?_⟩
    rcases Nat.lt_succ_iff_lt_or_eq.1 hr with hr | rfl
    · rw [← hval r c hc hr]; unfold valueAt; rw [hold r c hr (by omega)]
    · rcases Nat.eq_or_lt_of_le hc with rfl | hlt
      · exact hdiag
      · exact hrow c hlt

/-- **C97, undefined case.** A row without entries is a null pointer, which is read. -/
theorem C97_empty_row_undefined (n : Nat) (C : SpMat ℝ) : addRow n C none = none := by
  unfold addRow
  cases addSolve C none n <;> rfl

/-- A case: the matrix `[[4, 2], [2, 10]]`, row by row. -/
example : let A : SpMat ℝ := fun i => some (denseRow 2 fun j => if i = 0 then (if j = 0 then 4 else 2) else if j = 0 then 2 else 10)
    ∃ C m, addRows A 2 = some (some C) ∧ IsFactor 2 C m ∧ valueAt (m 0) 0 = 2 ∧ valueAt (m 1) 0 = 1 ∧ valueAt (m 1) 1 = 3 := by
  intro A
  obtain ⟨C, m, e, h, hv⟩ := C97_row_by_row_finds 2 A (fun i c => if c < 2 then some (if i = 0 then (if c = 0 then 4 else 2) else if c = 0 then 2 else 10) else none)
    (fun r hr => ⟨_, rfl, denseRow_rep 2 (by norm_num) _⟩) (fun i j => if i = 0 then 2 else if j = 0 then 1 else 3)
    (fun r c hc hr => by
      have : r = 0 ∨ r = 1 := by omega
      have : c = 0 ∨ c = 1 := by omega
      rcases ‹r = 0 ∨ r = 1› with rfl | rfl <;> rcases ‹c = 0 ∨ c = 1› with rfl | rfl
      · norm_num [valueAt, sum_range_succ]
      · omega
      · norm_num [valueAt, sum_range_succ]
      · norm_num [valueAt, sum_range_succ])
    (fun c hc => by split_ifs <;> norm_num) (fun r c hc hr => .inr (by split_ifs <;> norm_num))
  refine ⟨C, m, e, h, ?_, ?_, ?_⟩
  · rw [hv 0 0 le_rfl (by norm_num)]; norm_num
  · rw [hv 1 0 (by norm_num) (by norm_num)]; norm_num
  · rw [hv 1 1 le_rfl (by norm_num)]; norm_num

end VoroCrust
