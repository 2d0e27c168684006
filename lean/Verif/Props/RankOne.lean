import Verif.Model.RankOne
import Mathlib.Algebra.BigOperators.Intervals
import Mathlib.Tactic.FieldSimp
import Mathlib.Tactic.Ring
import Mathlib.Tactic.IntervalCases
import Mathlib.Tactic.Positivity

/-!
# Properties of the update of a Cholesky factor and of the removal of a row (C126)
-/

namespace VoroCrust

/-! ## Specification -/

/-- The factor: lower triangular. -/
noncomputable def factorEntry (S : FactorState) (i k : Nat) : ℝ := if i = k then S.diag k else if k < i then entryOf (S.up k) i else 0

/-- The entries of the product of the factor and its transpose. -/
noncomputable def factorGram (n : Nat) (S : FactorState) (i j : Nat) : ℝ := ∑ k ∈ Finset.range n, factorEntry S i k * factorEntry S j k

/-- The indices of a list increase. -/
def Ascending (l : List (Nat × ℝ)) : Prop := l.Pairwise fun e e' => e.1 < e'.1

/-- A factor with `n` rows: the diagonal is positive, and the entries after it are sorted and in range. -/
def ValidFactor (n : Nat) (S : FactorState) : Prop := ∀ i : Nat, i < n → 0 < S.diag i ∧ Ascending (S.up i) ∧ ∀ e ∈ S.up i, i < e.1 ∧ e.1 < n

/-- The entries before the diagonal are those of the factor. -/
def Mirrored (n : Nat) (S : FactorState) : Prop := ∀ i : Nat, i < n → ∀ k : Nat, k < i → S.low i k = factorEntry S i k

/-! ## Lists -/

theorem entryOf_absent (l : List (Nat × ℝ)) (k : Nat) (h : ∀ e ∈ l, e.1 ≠ k) : entryOf l k = 0 := by
  induction l with
  | nil => rfl
  | cons e l ih =>
    obtain ⟨j, v⟩ := e
    unfold entryOf
    rw [if_neg (h (j, v) (by simp)), ih fun e he => h e (List.mem_cons_of_mem _ he)]

theorem keepEntry_entry (small : ℝ → Bool) (hsm : ∀ v : ℝ, small v = true → v = 0) (j : Nat) (v : ℝ) (l : List (Nat × ℝ)) (h : ∀ e ∈ l, j < e.1) (k : Nat) :
    entryOf (keepEntry small j v l) k = if j = k then v else entryOf l k := by
  unfold keepEntry
  by_cases hs : small v = true
  · rw [if_pos hs]
    by_cases hk : j = k
    · rw [if_pos hk, hsm v hs, ← hk]
      exact entryOf_absent l j fun e he => by have := h e he; omega
    · rw [if_neg hk]
  · rw [if_neg hs]
    rfl

theorem keepEntry_mem (small : ℝ → Bool) (j : Nat) (v : ℝ) (l : List (Nat × ℝ)) (e : Nat × ℝ) (h : e ∈ keepEntry small j v l) : e.1 = j ∨ e ∈ l := by
  unfold keepEntry at h
  split_ifs at h
  · exact Or.inr h
  · rcases List.mem_cons.1 h with h | h
    · left; rw [h]
    · exact Or.inr h

theorem keepEntry_ascending (small : ℝ → Bool) (j : Nat) (v : ℝ) (l : List (Nat × ℝ)) (ha : Ascending l) (h : ∀ e ∈ l, j < e.1) : Ascending (keepEntry small j v l) := by
  unfold keepEntry
  split_ifs
  · exact ha
  · exact List.pairwise_cons.2 ⟨h, ha⟩

/-- What the loop over a row and the vector does. -/
structure MergeOK (c s : ℝ) (cs xs : List (Nat × ℝ)) (t : List (Nat × ℝ) × List (Nat × ℝ) × List (Nat × ℝ)) : Prop where
  row : ∀ k : Nat, entryOf t.1 k = (entryOf cs k + s * entryOf xs k) / c
  vec : ∀ k : Nat, entryOf t.2.1 k = c * entryOf xs k - s * ((entryOf cs k + s * entryOf xs k) / c)
  wr : ∀ k : Nat, entryOf t.2.2 k = (entryOf cs k + s * entryOf xs k) / c
  subRow : ∀ e ∈ t.1, ∃ e' ∈ cs ++ xs, e'.1 = e.1
  subVec : ∀ e ∈ t.2.1, ∃ e' ∈ cs ++ xs, e'.1 = e.1
  subWr : ∀ e ∈ t.2.2, ∃ e' ∈ cs ++ xs, e'.1 = e.1
  sup : ∀ e ∈ cs ++ xs, ∃ e' ∈ t.2.2, e'.1 = e.1
  ascRow : Ascending t.1
  ascVec : Ascending t.2.1
  ascWr : Ascending t.2.2

theorem merge_step (small : ℝ → Bool) (hsm : ∀ v : ℝ, small v = true → v = 0) (c s l0 x0 : ℝ) (m : Nat) (cs xs cs' xs' : List (Nat × ℝ)) (t : List (Nat × ℝ) × List (Nat × ℝ) × List (Nat × ℝ)) (X : List (Nat × ℝ))
    (ht : MergeOK c s cs' xs' t) (hgt : ∀ e ∈ cs' ++ xs', m < e.1) (hcs : ∀ k : Nat, entryOf cs k = if m = k then l0 else entryOf cs' k) (hxs : ∀ k : Nat, entryOf xs k = if m = k then x0 else entryOf xs' k)
    (hmem : ∃ e ∈ cs ++ xs, e.1 = m) (hsub : ∀ e ∈ cs' ++ xs', e ∈ cs ++ xs) (hsup : ∀ e ∈ cs ++ xs, e.1 = m ∨ e ∈ cs' ++ xs')
    (hX : X = (m, c * x0 - s * ((l0 + s * x0) / c)) :: t.2.1 ∨ X = keepEntry small m (c * x0 - s * ((l0 + s * x0) / c)) t.2.1) :
    MergeOK c s cs xs (keepEntry small m ((l0 + s * x0) / c) t.1, X, (m, (l0 + s * x0) / c) :: t.2.2) := by
  have g : ∀ l : List (Nat × ℝ), (∀ e ∈ l, ∃ e' ∈ cs' ++ xs', e'.1 = e.1) → ∀ e ∈ l, m < e.1 := by
    intro l h e he
    obtain ⟨e', he', q⟩ := h e he
    rw [← q]
    exact hgt e' he'
  have sub : ∀ l : List (Nat × ℝ), (∀ e ∈ l, ∃ e' ∈ cs' ++ xs', e'.1 = e.1) → ∀ e, e.1 = m ∨ e ∈ l → ∃ e' ∈ cs ++ xs, e'.1 = e.1 := by
    rintro l h e (he | he)
    · rw [he]; exact hmem
    · obtain ⟨e', he', q⟩ := h e he
      exact ⟨e', hsub e' he', q⟩
  have Xe : ∀ k : Nat, entryOf X k = if m = k then c * x0 - s * ((l0 + s * x0) / c) else entryOf t.2.1 k := by
    intro k
    rcases hX with h | h
    · rw [h]; rfl
    · rw [h]; exact keepEntry_entry small hsm _ _ _ (g _ ht.subVec) k
  have Xm : ∀ e ∈ X, e.1 = m ∨ e ∈ t.2.1 := by
    intro e he
    rcases hX with h | h
    · rw [h] at he
      rcases List.mem_cons.1 he with q | q
      · left; rw [q]
      · exact Or.inr q
    · rw [h] at he; exact keepEntry_mem small _ _ _ e he
  refine ⟨?_, ?_, ?_, ?_, ?_, ?_, ?_, ?_, ?_, ?_⟩
  · intro k
    rw [keepEntry_entry small hsm _ _ _ (g _ ht.subRow) k, hcs, hxs, ht.row]
    split_ifs <;> rfl
  · intro k
    show entryOf X k = _
    rw [Xe, hcs, hxs, ht.vec]
    split_ifs <;> rfl
  · intro k
    show (if m = k then (l0 + s * x0) / c else entryOf t.2.2 k) = _
    rw [hcs, hxs, ht.wr]
    split_ifs <;> rfl
  · intro e he
    exact sub _ ht.subRow e (keepEntry_mem small _ _ _ e he)
  · intro e he
    exact sub _ ht.subVec e (Xm e he)
  · intro e he
    refine sub _ ht.subWr e ?_
    rcases List.mem_cons.1 he with q | q
    · left; rw [q]
    · exact Or.inr q
  · intro e he
    rcases hsup e he with q | q
    · exact ⟨_, List.mem_cons_self, q.symm⟩
    · obtain ⟨e', he', q'⟩ := ht.sup e q
      exact ⟨e', List.mem_cons_of_mem _ he', q'⟩
  · exact keepEntry_ascending small _ _ _ ht.ascRow (g _ ht.subRow)
  · show Ascending X
    rcases hX with h | h
    · rw [h]; exact List.pairwise_cons.2 ⟨g _ ht.subVec, ht.ascVec⟩
    · rw [h]; exact keepEntry_ascending small _ _ _ ht.ascVec (g _ ht.subVec)
  · exact List.pairwise_cons.2 ⟨g _ ht.subWr, ht.ascWr⟩

theorem mergeRow_spec (small : ℝ → Bool) (hsm : ∀ v : ℝ, small v = true → v = 0) (c s : ℝ) : ∀ (N : Nat) (cs xs : List (Nat × ℝ)), cs.length + xs.length ≤ N → Ascending cs → Ascending xs →
    MergeOK c s cs xs (mergeRow small c s cs xs) := by
  intro N
  induction N with
  | zero =>
    intro cs xs hN _ _
    have h1 : cs = [] := List.length_eq_zero_iff.1 (by omega)
    have h2 : xs = [] := List.length_eq_zero_iff.1 (by omega)
    subst h1; subst h2
    rw [mergeRow]
    refine ⟨fun k => ?_, fun k => ?_, fun k => ?_, by simp, by simp, by simp, by simp, List.Pairwise.nil, List.Pairwise.nil, List.Pairwise.nil⟩ <;> simp [entryOf]
  | succ N ih =>
    intro cs xs hN hc hx
    match cs, xs with
    | [], [] =>
      rw [mergeRow]
      refine ⟨fun k => ?_, fun k => ?_, fun k => ?_, by simp, by simp, by simp, by simp, List.Pairwise.nil, List.Pairwise.nil, List.Pairwise.nil⟩ <;> simp [entryOf]
    | [], (m, x) :: xs =>
      rw [mergeRow]
      obtain ⟨hgt, hx'⟩ := List.pairwise_cons.1 hx
      refine merge_step small hsm c s 0 x m [] ((m, x) :: xs) [] xs _ _ (ih [] xs (by simp at hN ⊢; omega) hc hx') (by simpa using hgt) ?_ (fun k => rfl) ⟨(m, x), by simp, rfl⟩ (fun e he => List.mem_cons_of_mem _ he) ?_ (Or.inl rfl)
      · intro k; split_ifs <;> rfl
      · intro e he
        rcases List.mem_cons.1 (by simpa using he) with h | h
        · left; rw [h]
        · right; simpa using h
    | (j, l) :: cs, [] =>
      rw [mergeRow]
      obtain ⟨hgt, hc'⟩ := List.pairwise_cons.1 hc
      have e1 : l / c = (l + s * 0) / c := by ring
      have e2 : -s * (l / c) = c * 0 - s * ((l + s * 0) / c) := by ring
      rw [e2, e1]
      refine merge_step small hsm c s l 0 j ((j, l) :: cs) [] cs [] _ _ (ih cs [] (by simp at hN ⊢; omega) hc' hx) (by simpa using hgt) (fun k => rfl) ?_ ⟨(j, l), by simp, rfl⟩ ?_ ?_ (Or.inr rfl)
      · intro k; split_ifs <;> rfl
      · intro e he
        rw [List.append_nil] at he ⊢
        exact List.mem_cons_of_mem _ he
      · intro e he
        rw [List.append_nil] at he ⊢
        rcases List.mem_cons.1 he with h | h
        · left; rw [h]
        · exact Or.inr h
    | (j, l) :: cs, (m, x) :: xs =>
      rw [mergeRow]
      obtain ⟨hgc, hc'⟩ := List.pairwise_cons.1 hc
      obtain ⟨hgx, hx'⟩ := List.pairwise_cons.1 hx
      by_cases hmj : m ≤ j
      · rw [if_pos hmj]
        by_cases hjm : j = m
        · subst hjm
          simp only [if_true]
          refine merge_step small hsm c s l x j ((j, l) :: cs) ((j, x) :: xs) cs xs _ _ (ih cs xs (by simp at hN ⊢; omega) hc' hx') ?_ (fun k => rfl) (fun k => rfl) ⟨(j, l), by simp, rfl⟩ ?_ ?_ (Or.inl rfl)
          · intro e he
            rcases List.mem_append.1 he with h | h
            · exact hgc e h
            · exact hgx e h
          · intro e he
            rcases List.mem_append.1 he with h | h
            · exact List.mem_append_left _ (List.mem_cons_of_mem _ h)
            · exact List.mem_append_right _ (List.mem_cons_of_mem _ h)
          · intro e he
            rcases List.mem_append.1 he with h | h
            · rcases List.mem_cons.1 h with q | q
              · left; rw [q]
              · exact Or.inr (List.mem_append_left _ q)
            · rcases List.mem_cons.1 h with q | q
              · left; rw [q]
              · exact Or.inr (List.mem_append_right _ q)
        · simp only [if_neg hjm]
          refine merge_step small hsm c s 0 x m ((j, l) :: cs) ((m, x) :: xs) ((j, l) :: cs) xs _ _ (ih ((j, l) :: cs) xs (by simp at hN ⊢; omega) hc hx') ?_ ?_ (fun k => rfl) ⟨(m, x), by simp, rfl⟩ ?_ ?_ (Or.inl rfl)
          · intro e he
            rcases List.mem_append.1 he with h | h
            · rcases List.mem_cons.1 h with q | q
              · rw [q]; show m < j; omega
              · have : j < e.1 := hgc e q
                omega
            · exact hgx e h
          · intro k
            by_cases hk : m = k
            · rw [if_pos hk]
              apply entryOf_absent
              intro e he
              rcases List.mem_cons.1 he with q | q
              · rw [q]; show j ≠ k; omega
              · have : j < e.1 := hgc e q
                omega
            · rw [if_neg hk]
          · intro e he
            rcases List.mem_append.1 he with h | h
            · exact List.mem_append_left _ h
            · exact List.mem_append_right _ (List.mem_cons_of_mem _ h)
          · intro e he
            rcases List.mem_append.1 he with h | h
            · exact Or.inr (List.mem_append_left _ h)
            · rcases List.mem_cons.1 h with q | q
              · left; rw [q]
              · exact Or.inr (List.mem_append_right _ q)
      · rw [if_neg hmj]
        have e1 : l / c = (l + s * 0) / c := by ring
        have e2 : -s * (l / c) = c * 0 - s * ((l + s * 0) / c) := by ring
        show MergeOK c s ((j, l) :: cs) ((m, x) :: xs) (keepEntry small j (l / c) (mergeRow small c s cs ((m, x) :: xs)).1, keepEntry small j (-s * (l / c)) (mergeRow small c s cs ((m, x) :: xs)).2.1, (j, l / c) :: (mergeRow small c s cs ((m, x) :: xs)).2.2)
        rw [e2, e1]
        refine merge_step small hsm c s l 0 j ((j, l) :: cs) ((m, x) :: xs) cs ((m, x) :: xs) _ _ (ih cs ((m, x) :: xs) (by simp at hN ⊢; omega) hc' hx) ?_ (fun k => rfl) ?_ ⟨(j, l), by simp, rfl⟩ ?_ ?_ (Or.inr rfl)
        · intro e he
          rcases List.mem_append.1 he with h | h
          · exact hgc e h
          · rcases List.mem_cons.1 h with q | q
            · rw [q]; show j < m; omega
            · have : m < e.1 := hgx e q
              omega
        · intro k
          by_cases hk : j = k
          · rw [if_pos hk]
            apply entryOf_absent
            intro e he
            rcases List.mem_cons.1 he with q | q
            · rw [q]; show m ≠ k; omega
            · have : m < e.1 := hgx e q
              omega
          · rw [if_neg hk]
        · intro e he
          rcases List.mem_append.1 he with h | h
          · exact List.mem_append_left _ (List.mem_cons_of_mem _ h)
          · exact List.mem_append_right _ h
        · intro e he
          rcases List.mem_append.1 he with h | h
          · rcases List.mem_cons.1 h with q | q
            · left; rw [q]
            · exact Or.inr (List.mem_append_left _ q)
          · exact Or.inr (List.mem_append_right _ h)

theorem writeBelow_eq (small : ℝ → Bool) (hsm : ∀ v : ℝ, small v = true → v = 0) (i : Nat) : ∀ (ws : List (Nat × ℝ)) (low : Nat → Nat → ℝ), Ascending ws → ∀ a b : Nat,
    ((b ≠ i ∨ ∀ e ∈ ws, e.1 ≠ a) → writeBelow small i ws low a b = low a b) ∧ ((b = i ∧ ∃ e ∈ ws, e.1 = a) → writeBelow small i ws low a b = entryOf ws a) := by
  intro ws
  induction ws with
  | nil =>
    intro low _ a b
    exact ⟨fun _ => rfl, fun h => by obtain ⟨_, e, he, _⟩ := h; simp at he⟩
  | cons w ws ih =>
    obtain ⟨m, v⟩ := w
    intro low ha a b
    obtain ⟨hgt, ha'⟩ := List.pairwise_cons.1 ha
    unfold writeBelow
    obtain ⟨h1, h2⟩ := ih (fun a b => if a = m ∧ b = i then (if small v then 0 else v) else low a b) ha' a b
    refine ⟨fun h => ?_, fun h => ?_⟩
    · rw [h1 (by
        rcases h with h | h
        · exact Or.inl h
        · exact Or.inr fun e he => h e (List.mem_cons_of_mem _ he))]
      rw [if_neg]
      rintro ⟨q1, q2⟩
      rcases h with h | h
      · exact h q2
      · exact h (m, v) (by simp) q1.symm
    · obtain ⟨hb, e, he, hea⟩ := h
      unfold entryOf
      by_cases hm : m = a
      · rw [if_pos hm, h1 (Or.inr fun e' he' => by have : m < e'.1 := hgt e' he'; omega), if_pos ⟨hm.symm, hb⟩]
        split_ifs with hs
        · exact (hsm v hs).symm
        · rfl
      · rw [if_neg hm]
        rcases List.mem_cons.1 he with q | q
        · exact absurd (by rw [q] at hea; exact hea) hm
        · exact h2 ⟨hb, e, q, hea⟩

/-! ## One entry of the vector -/

theorem rotate_pair (c s p q p2 q2 : ℝ) (hc : c ≠ 0) (hcs : c * c = 1 + s * s) :
    (p + s * q) / c * ((p2 + s * q2) / c) + (c * q - s * ((p + s * q) / c)) * (c * q2 - s * ((p2 + s * q2) / c)) = p * p2 + q * q2 := by
  have e : ∀ p q : ℝ, c * q - s * ((p + s * q) / c) = (q - s * p) / c := by
    intro p q
    field_simp
    have : c ^ 2 = 1 + s * s := by rw [pow_two]; exact hcs
    rw [this]; ring
  rw [e, e]
  have hcc : c * c ≠ 0 := mul_ne_zero hc hc
  have : (p + s * q) / c * ((p2 + s * q2) / c) + (q - s * p) / c * ((q2 - s * p2) / c) = ((1 + s * s) * (p * p2 + q * q2)) / (c * c) := by
    field_simp; ring
  rw [this, ← hcs]
  field_simp

theorem rankStep_spec (small : ℝ → Bool) (hsm : ∀ v : ℝ, small v = true → v = 0) (n : Nat) (S : FactorState) (i : Nat) (xi : ℝ) (xs : List (Nat × ℝ))
    (hS : ValidFactor n S) (hM : Mirrored n S) (hx : Ascending ((i, xi) :: xs)) (hn : ∀ e ∈ (i, xi) :: xs, e.1 < n) :
    ∃ S' xs', rankStep small n S i xi xs = some (S', xs') ∧ ValidFactor n S' ∧ Mirrored n S' ∧ Ascending xs' ∧ (∀ e ∈ xs', i < e.1 ∧ e.1 < n) ∧
      ∀ a b : Nat, factorGram n S' a b + entryOf xs' a * entryOf xs' b = factorGram n S a b + entryOf ((i, xi) :: xs) a * entryOf ((i, xi) :: xs) b := by
  have hi : i < n := hn (i, xi) (by simp)
  obtain ⟨hgx, hx'⟩ := List.pairwise_cons.1 hx
  obtain ⟨hd, hup, hur⟩ := hS i hi
  have hd0 : S.diag i ≠ 0 := ne_of_gt hd
  have hpos : 0 < S.diag i * S.diag i + xi * xi := by
    have := mul_pos hd hd
    have := mul_self_nonneg xi
    linarith
  have hr : 0 < Real.sqrt (S.diag i * S.diag i + xi * xi) := Real.sqrt_pos.2 hpos
  have hrr : Real.sqrt (S.diag i * S.diag i + xi * xi) * Real.sqrt (S.diag i * S.diag i + xi * xi) = S.diag i * S.diag i + xi * xi := Real.mul_self_sqrt hpos.le
  unfold rankStep
  rw [if_pos hi, if_neg hd0]
  simp only []
  generalize hrdef : Real.sqrt (S.diag i * S.diag i + xi * xi) = r at *
  have hc0 : r / S.diag i ≠ 0 := div_ne_zero (ne_of_gt hr) hd0
  rw [if_neg hc0]
  have hmk := mergeRow_spec small hsm (r / S.diag i) (xi / S.diag i) _ (S.up i) xs (le_refl _) hup hx'
  generalize mergeRow small (r / S.diag i) (xi / S.diag i) (S.up i) xs = t at *
  have hkeys : ∀ e ∈ S.up i ++ xs, i < e.1 ∧ e.1 < n := by
    intro e he
    rcases List.mem_append.1 he with h | h
    · exact hur e h
    · exact ⟨hgx e h, hn e (List.mem_cons_of_mem _ h)⟩
  have hk : ∀ l : List (Nat × ℝ), (∀ e ∈ l, ∃ e' ∈ S.up i ++ xs, e'.1 = e.1) → ∀ e ∈ l, i < e.1 ∧ e.1 < n := by
    intro l h e he
    obtain ⟨e', he', q⟩ := h e he
    rw [← q]
    exact hkeys e' he'
  have hsr : small r = false := by
    cases h : small r with
    | false => rfl
    | true => exact absurd (hsm r h) (ne_of_gt hr)
  rw [hsr]
  simp only [Bool.false_eq_true, if_false]
  refine ⟨_, _, rfl, ?_, ?_, hmk.ascVec, hk _ hmk.subVec, ?_⟩
  · intro k hkn
    by_cases hki : k = i
    · subst hki
      simp only [if_true]
      exact ⟨hr, hmk.ascRow, hk _ hmk.subRow⟩
    · simp only [if_neg hki]
      exact hS k hkn
  · intro a han k hka
    show writeBelow small i t.2.2 S.low a k = _
    unfold factorEntry
    rw [if_neg (by omega), if_pos hka]
    have hw := writeBelow_eq small hsm i t.2.2 S.low hmk.ascWr a k
    have hMk := hM a han k hka
    unfold factorEntry at hMk
    rw [if_neg (by omega), if_pos hka] at hMk
    by_cases hki : k = i
    · subst hki
      simp only [if_true]
      by_cases hin : ∃ e ∈ t.2.2, e.1 = a
      · rw [hw.2 ⟨rfl, hin⟩, hmk.wr, hmk.row]
      · have hno : ∀ e ∈ t.2.2, e.1 ≠ a := fun e he q => hin ⟨e, he, q⟩
        have hno' : ∀ e ∈ S.up k ++ xs, e.1 ≠ a := by
          intro e he q
          obtain ⟨e', he', q'⟩ := hmk.sup e he
          exact hno e' he' (q'.trans q)
        rw [hw.1 (Or.inr hno), hMk, hmk.row, entryOf_absent (S.up k) a fun e he => hno' e (List.mem_append_left _ he), entryOf_absent xs a fun e he => hno' e (List.mem_append_right _ he)]
        ring
    · simp only [if_neg hki]
      rw [hw.1 (Or.inl hki), hMk]
  · intro a b
    have hcol : ∀ a : Nat, factorEntry { diag := fun k => if k = i then r else S.diag k, up := fun k => if k = i then t.1 else S.up k, low := writeBelow small i t.2.2 S.low } a i
        = (factorEntry S a i + xi / S.diag i * entryOf ((i, xi) :: xs) a) / (r / S.diag i)
        ∧ entryOf t.2.1 a = r / S.diag i * entryOf ((i, xi) :: xs) a - xi / S.diag i * ((factorEntry S a i + xi / S.diag i * entryOf ((i, xi) :: xs) a) / (r / S.diag i)) := by
      intro a
      unfold factorEntry
      simp only [if_true]
      rcases lt_trichotomy a i with h | h | h
      · have z1 : entryOf ((i, xi) :: xs) a = 0 := entryOf_absent _ _ fun e he => by
          rcases List.mem_cons.1 he with q | q
          · rw [q]; show i ≠ a; omega
          · have : i < e.1 := hgx e q
            omega
        have z2 : entryOf t.2.1 a = 0 := entryOf_absent _ _ fun e he => by have := (hk _ hmk.subVec e he).1; omega
        rw [z1, z2, if_neg (by omega), if_neg (by omega), if_neg (by omega), if_neg (by omega)]
        constructor <;> ring
      · subst h
        have z1 : entryOf ((a, xi) :: xs) a = xi := by unfold entryOf; rw [if_pos rfl]
        have z2 : entryOf t.2.1 a = 0 := entryOf_absent _ _ fun e he => by have := (hk _ hmk.subVec e he).1; omega
        rw [z1, z2, if_pos rfl, if_pos rfl]
        have hr0 : r ≠ 0 := ne_of_gt hr
        have q : (S.diag a + xi / S.diag a * xi) / (r / S.diag a) = r := by
          field_simp
          nlinarith [hrr]
        rw [q]
        exact ⟨rfl, by ring⟩
      · have z1 : entryOf ((i, xi) :: xs) a = entryOf xs a := by
          show (if i = a then xi else entryOf xs a) = _
          rw [if_neg (by omega)]
        rw [z1, if_neg (by omega), if_pos h, if_neg (by omega), if_pos h]
        exact ⟨hmk.row a, hmk.vec a⟩
    have hoth : ∀ a k : Nat, k ≠ i → factorEntry { diag := fun k => if k = i then r else S.diag k, up := fun k => if k = i then t.1 else S.up k, low := writeBelow small i t.2.2 S.low } a k = factorEntry S a k := by
      intro a k hki
      unfold factorEntry
      simp only [if_neg hki]
    have hcc : r / S.diag i * (r / S.diag i) = 1 + xi / S.diag i * (xi / S.diag i) := by
      field_simp
      nlinarith [hrr]
    unfold factorGram
    rw [← Finset.add_sum_erase _ _ (Finset.mem_range.2 hi), ← Finset.add_sum_erase (Finset.range n) (fun k => factorEntry S a k * factorEntry S b k) (Finset.mem_range.2 hi)]
    have hrest : ∀ T : FactorState, (∀ a k : Nat, k ≠ i → factorEntry T a k = factorEntry S a k) →
        ∑ k ∈ (Finset.range n).erase i, factorEntry T a k * factorEntry T b k = ∑ k ∈ (Finset.range n).erase i, factorEntry S a k * factorEntry S b k := by
      intro T hT
      apply Finset.sum_congr rfl
      intro k hk
      rw [hT a k (Finset.ne_of_mem_erase hk), hT b k (Finset.ne_of_mem_erase hk)]
    have hrest' := hrest _ hoth
    have hrot := rotate_pair (r / S.diag i) (xi / S.diag i) (factorEntry S a i) (entryOf ((i, xi) :: xs) a) (factorEntry S b i) (entryOf ((i, xi) :: xs) b) hc0 hcc
    rw [← (hcol a).1, ← (hcol b).1] at hrot
    have ea := (hcol a).2
    have eb := (hcol b).2
    rw [← (hcol a).1] at ea
    rw [← (hcol b).1] at eb
    rw [← ea, ← eb] at hrot
    linarith [hrest', hrot]

theorem rankOne_spec (small : ℝ → Bool) (hsm : ∀ v : ℝ, small v = true → v = 0) (n : Nat) : ∀ (fuel : Nat) (S : FactorState) (x : List (Nat × ℝ)),
    ValidFactor n S → Mirrored n S → Ascending x → (∀ e ∈ x, n ≤ e.1 + fuel ∧ e.1 < n) →
    ∃ S', rankOne small n fuel S x = some S' ∧ ValidFactor n S' ∧ Mirrored n S' ∧ ∀ a b : Nat, factorGram n S' a b = factorGram n S a b + entryOf x a * entryOf x b := by
  intro fuel
  induction fuel with
  | zero =>
    intro S x hS hM hx hn
    match x with
    | [] =>
      refine ⟨S, by rw [rankOne], hS, hM, fun a b => ?_⟩
      simp [entryOf]
    | e :: x =>
      have := hn e (by simp)
      omega
  | succ fuel ih =>
    intro S x hS hM hx hn
    match x with
    | [] =>
      refine ⟨S, by rw [rankOne], hS, hM, fun a b => ?_⟩
      simp [entryOf]
    | (i, xi) :: x =>
      obtain ⟨S', x', hst, hS', hM', hx', hn', hg⟩ := rankStep_spec small hsm n S i xi x hS hM hx fun e he => (hn e he).2
      have hi := (hn (i, xi) (by simp)).1
      obtain ⟨T, hT, hTv, hTm, hTg⟩ := ih S' x' hS' hM' hx' fun e he => by
        have := hn' e he
        have hi' : n ≤ i + (fuel + 1) := hi
        omega
      refine ⟨T, ?_, hTv, hTm, fun a b => ?_⟩
      · rw [rankOne, hst]
        exact hT
      · rw [hTg, hg]

/-! ## The entries of the parts -/

theorem entryOf_lower (d : Nat) (l : List (Nat × ℝ)) (h : ∀ e ∈ l, d ≤ e.1) (a : Nat) : entryOf (l.map fun e => (e.1 - d, e.2)) a = entryOf l (a + d) := by
  induction l with
  | nil => rfl
  | cons e l ih =>
    obtain ⟨j, v⟩ := e
    have hj : d ≤ j := h (j, v) (by simp)
    have ih := ih fun e he => h e (List.mem_cons_of_mem _ he)
    show (if j - d = a then v else entryOf (l.map fun e => (e.1 - d, e.2)) a) = if j = a + d then v else entryOf l (a + d)
    rw [ih]
    by_cases hq : j = a + d
    · rw [if_pos hq, if_pos (by omega)]
    · rw [if_neg hq, if_neg (by omega)]

theorem entryOf_raise (d : Nat) (l : List (Nat × ℝ)) (a : Nat) : entryOf (l.map fun e => (e.1 + d, e.2)) (a + d) = entryOf l a := by
  induction l with
  | nil => rfl
  | cons e l ih =>
    obtain ⟨j, v⟩ := e
    show (if j + d = a + d then v else entryOf (l.map fun e => (e.1 + d, e.2)) (a + d)) = if j = a then v else entryOf l a
    rw [ih]
    by_cases hq : j = a
    · rw [if_pos hq, if_pos (by omega)]
    · rw [if_neg hq, if_neg (by omega)]

theorem entryOf_before (k : Nat) (l : List (Nat × ℝ)) (a : Nat) (ha : a < k) : entryOf (l.filter fun e => decide (e.1 < k)) a = entryOf l a := by
  induction l with
  | nil => rfl
  | cons e l ih =>
    obtain ⟨j, v⟩ := e
    by_cases hj : j < k
    · rw [List.filter_cons_of_pos (by simpa using hj)]
      show (if j = a then v else _) = if j = a then v else _
      rw [ih]
    · rw [List.filter_cons_of_neg (by simpa using hj), ih]
      show _ = if j = a then v else _
      rw [if_neg (by omega)]

/-- The place in the matrix with the row of a row of the matrix without it. -/
def skipRow (k i : Nat) : Nat := if i < k then i else i + 1

theorem entryOf_skip (k : Nat) (l : List (Nat × ℝ)) (a : Nat) : entryOf (skipEntries k l) a = entryOf l (skipRow k a) := by
  induction l with
  | nil => rfl
  | cons e l ih =>
    obtain ⟨j, v⟩ := e
    unfold skipEntries at *
    by_cases hj : j = k
    · rw [List.filter_cons_of_neg (by simpa using hj), ih]
      show _ = if j = skipRow k a then v else _
      rw [if_neg]
      unfold skipRow
      split_ifs <;> omega
    · rw [List.filter_cons_of_pos (by simpa using hj), List.map_cons]
      show (if (if j < k then j else j - 1) = a then v else _) = if j = skipRow k a then v else _
      rw [ih]
      have : (if j < k then j else j - 1) = a ↔ j = skipRow k a := by
        unfold skipRow
        split_ifs <;> omega
      by_cases hq : j = skipRow k a
      · rw [if_pos hq, if_pos (this.2 hq)]
      · rw [if_neg hq, if_neg fun q => hq (this.1 q)]

theorem ascending_lower (d : Nat) (l : List (Nat × ℝ)) (ha : Ascending l) (h : ∀ e ∈ l, d ≤ e.1) : Ascending (l.map fun e => (e.1 - d, e.2)) := by
  unfold Ascending
  rw [List.pairwise_map]
  refine List.Pairwise.imp_of_mem ?_ ha
  intro a b ha hb hab
  have := h a ha
  show a.1 - d < b.1 - d
  omega

theorem ascending_skip (k : Nat) (l : List (Nat × ℝ)) (ha : Ascending l) : Ascending (skipEntries k l) := by
  unfold Ascending skipEntries
  rw [List.pairwise_map]
  refine List.Pairwise.imp_of_mem ?_ (List.Pairwise.filter _ ha)
  intro a b ha hb hab
  have h1 : a.1 ≠ k := by simpa using (List.mem_filter.1 ha).2
  have h2 : b.1 ≠ k := by simpa using (List.mem_filter.1 hb).2
  show (if a.1 < k then a.1 else a.1 - 1) < (if b.1 < k then b.1 else b.1 - 1)
  split_ifs <;> omega

theorem lowerCorner_entry (n k : Nat) (S : FactorState) (hS : ValidFactor n S) (a m : Nat) (hm : m + k + 1 < n) : factorEntry (lowerCorner k S) a m = factorEntry S (a + k + 1) (m + k + 1) := by
  unfold factorEntry lowerCorner
  by_cases h1 : a = m
  · rw [if_pos h1, if_pos (by omega)]
  · rw [if_neg h1, if_neg (show ¬ a + k + 1 = m + k + 1 by omega)]
    by_cases h2 : m < a
    · rw [if_pos h2, if_pos (show m + k + 1 < a + k + 1 by omega)]
      have := entryOf_lower (k + 1) (S.up (m + k + 1)) (fun e he => by have := ((hS (m + k + 1) hm).2.2 e he).1; omega) a
      simpa [Nat.sub_sub, Nat.add_assoc] using this
    · rw [if_neg h2, if_neg (show ¬ m + k + 1 < a + k + 1 by omega)]

theorem lowerCorner_valid (n k : Nat) (S : FactorState) (hS : ValidFactor n S) (hM : Mirrored n S) : ValidFactor (n - k - 1) (lowerCorner k S) ∧ Mirrored (n - k - 1) (lowerCorner k S) := by
  constructor
  · intro i hi
    obtain ⟨h1, h2, h3⟩ := hS (i + k + 1) (by omega)
    refine ⟨h1, ?_, ?_⟩
    · have := ascending_lower (k + 1) _ h2 fun e he => by have := (h3 e he).1; omega
      simpa [lowerCorner, Nat.sub_sub] using this
    · intro e he
      obtain ⟨e', he', q⟩ := List.mem_map.1 he
      have := h3 e' he'
      rw [← q]
      show i < e'.1 - k - 1 ∧ e'.1 - k - 1 < n - k - 1
      omega
  · intro i hi j hj
    rw [lowerCorner_entry n k S hS i j (by omega)]
    exact hM (i + k + 1) (by omega) (j + k + 1) (by omega)

/-! ## C126 -/

/-- **C126 (a).** Adding a vector to a factor: for every factor with a positive diagonal and every vector with sorted indices in range, the update ends within one step per row, never divides by zero, and gives a factor with a
positive diagonal and sorted rows whose product is the product of the old one plus the vector times itself; the entries that are stored a second time below the diagonal agree with the factor again. -/
theorem C126_rank_one (small : ℝ → Bool) (hsm : ∀ v : ℝ, small v = true → v = 0) (n : Nat) (S : FactorState) (x : List (Nat × ℝ)) (hS : ValidFactor n S) (hM : Mirrored n S) (hx : Ascending x) (hn : ∀ e ∈ x, e.1 < n) :
    ∃ S', rankOne small n n S x = some S' ∧ ValidFactor n S' ∧ Mirrored n S' ∧ ∀ a b : Nat, factorGram n S' a b = factorGram n S a b + entryOf x a * entryOf x b :=
  rankOne_spec small hsm n n S x hS hM hx fun e he => ⟨by omega, hn e he⟩

/-- **C126 (b).** Removing a row: for every factor with a positive diagonal and every row `k` of it, the removal gives a factor with one row less, a positive diagonal and sorted rows, whose product is the product of the old one
without row and column `k`; the entries below the diagonal agree with it. -/
theorem C126_remove_row (small : ℝ → Bool) (hsm : ∀ v : ℝ, small v = true → v = 0) (n k : Nat) (hk : k < n) (S : FactorState) (hS : ValidFactor n S) (hM : Mirrored n S) :
    ∃ S', removeFactorRow small n k S = some S' ∧ ValidFactor (n - 1) S' ∧ Mirrored (n - 1) S' ∧
      ∀ i j : Nat, i < n - 1 → j < n - 1 → factorGram (n - 1) S' i j = factorGram n S (if i < k then i else i + 1) (if j < k then j else j + 1) := by
  unfold removeFactorRow
  by_cases hlast : k + 1 = n
  · rw [if_pos hlast]
    have hent : ∀ i m : Nat, i < k → factorEntry { diag := S.diag, up := fun i => (S.up i).filter fun e => decide (e.1 < k), low := S.low } i m = factorEntry S i m := by
      intro i m hi
      unfold factorEntry
      simp only []
      rw [entryOf_before k _ i hi]
    refine ⟨_, rfl, ?_, ?_, ?_⟩
    · intro i hi
      obtain ⟨h1, h2, h3⟩ := hS i (by omega)
      refine ⟨h1, List.Pairwise.filter _ h2, ?_⟩
      intro e he
      obtain ⟨q1, q2⟩ := List.mem_filter.1 he
      have q2 : e.1 < k := by simpa using q2
      have := h3 e q1
      omega
    · intro i hi j hj
      rw [hent i j (by omega)]
      exact hM i (by omega) j hj
    · intro i j hi hj
      rw [if_pos (by omega), if_pos (by omega)]
      unfold factorGram
      have hn : n = n - 1 + 1 := by omega
      rw [hn, Finset.sum_range_succ]
      have z : factorEntry S i (n - 1) = 0 := by
        unfold factorEntry
        rw [if_neg (by omega), if_neg (by omega)]
      rw [z, zero_mul, add_zero]
      apply Finset.sum_congr rfl
      intro m _
      rw [hent i m (by omega), hent j m (by omega)]
  · rw [if_neg hlast, if_pos hk]
    obtain ⟨hCv, hCm⟩ := lowerCorner_valid n k S hS hM
    obtain ⟨_, hk2, hk3⟩ := hS k hk
    have hxe : ∀ a : Nat, entryOf ((S.up k).map fun e => (e.1 - k - 1, e.2)) a = factorEntry S (a + k + 1) k := by
      intro a
      have := entryOf_lower (k + 1) (S.up k) (fun e he => by have := (hk3 e he).1; omega) a
      unfold factorEntry
      rw [if_neg (by omega), if_pos (by omega)]
      simpa [Nat.sub_sub, Nat.add_assoc] using this
    obtain ⟨T, hT, hTv, hTm, hTg⟩ := C126_rank_one small hsm (n - k - 1) (lowerCorner k S) ((S.up k).map fun e => (e.1 - k - 1, e.2)) hCv hCm
      (by
        have := ascending_lower (k + 1) _ hk2 fun e he => by have := (hk3 e he).1; omega
        simpa [Nat.sub_sub] using this)
      (by
        intro e he
        obtain ⟨e', he', q⟩ := List.mem_map.1 he
        have := hk3 e' he'
        rw [← q]
        show e'.1 - k - 1 < n - k - 1
        omega)
    rw [hT]
    simp only []
    generalize hR : FactorState.mk (fun i => if i < k then S.diag i else T.diag (i - k)) (fun i => if i < k then skipEntries k (S.up i) else (T.up (i - k)).map fun e => (e.1 + k, e.2))
      (fun i j => if i < k then S.low i j else if j < k then S.low (i + 1) j else T.low (i - k) (j - k)) = R
    have hd : ∀ i, R.diag i = if i < k then S.diag i else T.diag (i - k) := fun i => by rw [← hR]
    have hu : ∀ i, R.up i = if i < k then skipEntries k (S.up i) else (T.up (i - k)).map fun e => (e.1 + k, e.2) := fun i => by rw [← hR]
    have hl : ∀ i j, R.low i j = if i < k then S.low i j else if j < k then S.low (i + 1) j else T.low (i - k) (j - k) := fun i j => by rw [← hR]
    have hbef : ∀ i m : Nat, m < k → factorEntry R i m = factorEntry S (if i < k then i else i + 1) m := by
      intro i m hm
      unfold factorEntry
      rw [hd, hu, if_pos hm, if_pos hm, entryOf_skip]
      unfold skipRow
      by_cases hi : i < k
      · rw [if_pos hi]
      · rw [if_neg hi, if_neg (by omega), if_pos (by omega), if_neg (by omega), if_pos (by omega)]
    have haft : ∀ i m : Nat, factorEntry R (i + k) (m + k) = factorEntry T i m := by
      intro i m
      unfold factorEntry
      rw [hd, hu, if_neg (show ¬ m + k < k by omega), if_neg (show ¬ m + k < k by omega), entryOf_raise, Nat.add_sub_cancel]
      by_cases h1 : i = m
      · rw [if_pos h1, if_pos (by omega)]
      · rw [if_neg h1, if_neg (by omega)]
        by_cases h2 : m < i
        · rw [if_pos h2, if_pos (by omega)]
        · rw [if_neg h2, if_neg (by omega)]
    have hzero : ∀ (Q : FactorState) (i m : Nat), i < m → factorEntry Q i m = 0 := by
      intro Q i m h
      unfold factorEntry
      rw [if_neg (by omega), if_neg (by omega)]
    refine ⟨R, rfl, ?_, ?_, ?_⟩
    · intro i hi
      rw [hd, hu]
      by_cases h : i < k
      · rw [if_pos h, if_pos h]
        obtain ⟨h1, h2, h3⟩ := hS i (by omega)
        refine ⟨h1, ascending_skip k _ h2, ?_⟩
        intro e he
        obtain ⟨e', he', q⟩ := List.mem_map.1 he
        obtain ⟨q1, q2⟩ := List.mem_filter.1 he'
        have q2 : e'.1 ≠ k := by simpa using q2
        have := h3 e' q1
        rw [← q]
        show i < (if e'.1 < k then e'.1 else e'.1 - 1) ∧ (if e'.1 < k then e'.1 else e'.1 - 1) < n - 1
        split_ifs <;> omega
      · rw [if_neg h, if_neg h]
        obtain ⟨h1, h2, h3⟩ := hTv (i - k) (by omega)
        refine ⟨h1, ?_, ?_⟩
        · unfold Ascending
          rw [List.pairwise_map]
          refine List.Pairwise.imp ?_ h2
          intro a b hab
          show a.1 + k < b.1 + k
          omega
        · intro e he
          obtain ⟨e', he', q⟩ := List.mem_map.1 he
          have := h3 e' he'
          rw [← q]
          show i < e'.1 + k ∧ e'.1 + k < n - 1
          omega
    · intro i hi j hj
      rw [hl]
      by_cases h : i < k
      · rw [if_pos h, hbef i j (by omega), if_pos h]
        exact hM i (by omega) j hj
      · rw [if_neg h]
        by_cases h' : j < k
        · rw [if_pos h', hbef i j h', if_neg h]
          exact hM (i + 1) (by omega) j (by omega)
        · rw [if_neg h', hTm (i - k) (by omega) (j - k) (by omega)]
          have := haft (i - k) (j - k)
          rw [Nat.sub_add_cancel (by omega), Nat.sub_add_cancel (by omega)] at this
          exact this.symm
    · intro i j hi hj
      unfold factorGram
      have e1 : n - 1 = k + (n - k - 1) := by omega
      have e2 : n = k + ((n - k - 1) + 1) := by omega
      rw [e1]
      conv_rhs => rw [e2]
      rw [Finset.sum_range_add, Finset.sum_range_add, Finset.sum_range_succ' _ (n - k - 1)]
      have hfirst : ∑ m ∈ Finset.range k, factorEntry R i m * factorEntry R j m = ∑ m ∈ Finset.range k, factorEntry S (if i < k then i else i + 1) m * factorEntry S (if j < k then j else j + 1) m := by
        apply Finset.sum_congr rfl
        intro m hm
        rw [hbef i m (Finset.mem_range.1 hm), hbef j m (Finset.mem_range.1 hm)]
      rw [hfirst]
      congr 1
      by_cases hik : i < k
      · rw [if_pos hik]
        rw [Finset.sum_eq_zero (fun m _ => by rw [hzero R i (k + m) (by omega), zero_mul]), Finset.sum_eq_zero (fun m _ => by rw [hzero S i (k + (m + 1)) (by omega), zero_mul]), hzero S i (k + 0) (by omega)]
        ring
      · by_cases hjk : j < k
        · rw [if_pos hjk]
          rw [Finset.sum_eq_zero (fun m _ => by rw [hzero R j (k + m) (by omega), mul_zero]), Finset.sum_eq_zero (fun m _ => by rw [hzero S j (k + (m + 1)) (by omega), mul_zero]), hzero S j (k + 0) (by omega)]
          ring
        · rw [if_neg hik, if_neg hjk]
          have hg := hTg (i - k) (j - k)
          rw [hxe, hxe] at hg
          unfold factorGram at hg
          have ei : i - k + k + 1 = i + 1 := by omega
          have ej : j - k + k + 1 = j + 1 := by omega
          have hA : ∑ m ∈ Finset.range (n - k - 1), factorEntry R i (k + m) * factorEntry R j (k + m) = ∑ m ∈ Finset.range (n - k - 1), factorEntry T (i - k) m * factorEntry T (j - k) m := by
            apply Finset.sum_congr rfl
            intro m _
            have a1 := haft (i - k) m
            have a2 := haft (j - k) m
            rw [Nat.sub_add_cancel (by omega)] at a1 a2
            rw [Nat.add_comm k m, a1, a2]
          have hB : ∑ m ∈ Finset.range (n - k - 1), factorEntry (lowerCorner k S) (i - k) m * factorEntry (lowerCorner k S) (j - k) m = ∑ m ∈ Finset.range (n - k - 1), factorEntry S (i + 1) (k + (m + 1)) * factorEntry S (j + 1) (k + (m + 1)) := by
            apply Finset.sum_congr rfl
            intro m hm
            have := Finset.mem_range.1 hm
            rw [lowerCorner_entry n k S hS _ m (by omega), lowerCorner_entry n k S hS _ m (by omega), ei, ej, show m + k + 1 = k + (m + 1) by omega]
          rw [hA, hg, hB, ei, ej]
          rfl

/-- **C126 (c).** The search for the first entry after the diagonal reads the index before it tests the position: in a row that fills its array and has no entry after the diagonal, it reads past the end of the array. -/
theorem C126_scan_undefined (v : SpVec ℝ) (junk : Nat → Nat) (row : Nat) (hfull : v.cap = v.num) (hle : ∀ p : Nat, p < v.num → v.idx p ≤ row) (fuel start : Nat) : scanPast v junk row fuel start = none := by
  have : ∀ (fuel p : Nat), scanPast v junk row fuel p = none := by
    intro fuel
    induction fuel with
    | zero => intro p; rfl
    | succ fuel ih =>
      intro p
      unfold scanPast
      by_cases hp : p < v.cap
      · rw [if_pos hp, if_pos (show p < v.num by omega), if_pos ⟨hle p (by omega), by omega⟩]
        exact ih (p + 1)
      · rw [if_neg hp]
  exact this fuel start

/-- **C126 (d).** In a row with a free cell, or with an entry after the diagonal, it ends at the first such entry, or after the last. -/
theorem C126_scan_partial (v : SpVec ℝ) (junk : Nat → Nat) (row q : Nat) (hq : q ≤ v.num) (hqc : q < v.cap) (hle : ∀ p : Nat, p < q → v.idx p ≤ row) (hgt : q = v.num ∨ row < v.idx q) (fuel start : Nat) (hst : start ≤ q) (hf : q < fuel + start) :
    scanPast v junk row fuel start = some q := by
  have : ∀ (fuel p : Nat), p ≤ q → q < fuel + p → scanPast v junk row fuel p = some q := by
    intro fuel
    induction fuel with
    | zero => intro p h1 h2; omega
    | succ fuel ih =>
      intro p h1 h2
      unfold scanPast
      rw [if_pos (by omega)]
      by_cases hpq : p = q
      · subst hpq
        rw [if_neg]
        rintro ⟨a, b⟩
        rw [if_pos b] at a
        rcases hgt with h | h <;> omega
      · have hlt : p < v.num := by omega
        rw [if_pos hlt, if_pos ⟨hle p (by omega), hlt⟩]
        exact ih (p + 1) (by omega) (by omega)
  exact this fuel start hst hf

/-! ## Examples -/

/-- The factor of the matrix with rows 9 3 and 3 17. -/
def exFactor : FactorState where
  diag := fun i => if i = 0 then 3 else 4
  up := fun i => if i = 0 then [(1, 1)] else []
  low := fun i j => if i = 1 ∧ j = 0 then 1 else 0

theorem exFactor_valid : ValidFactor 2 exFactor ∧ Mirrored 2 exFactor := by
  constructor
  · intro i hi
    interval_cases i <;> simp [exFactor, Ascending]
  · intro i hi k hk
    interval_cases i
    · omega
    · have : k = 0 := by omega
      subst this
      simp [exFactor, factorEntry, entryOf]

theorem exFactor_gram : factorGram 2 exFactor 0 0 = 9 ∧ factorGram 2 exFactor 0 1 = 3 ∧ factorGram 2 exFactor 1 1 = 17 := by
  refine ⟨?_, ?_, ?_⟩ <;> simp [factorGram, exFactor, factorEntry, entryOf, Finset.sum_range_succ] <;> norm_num

/-- Adding the vector 4, 2 gives the factor of the matrix with rows 25 11 and 11 21. -/
example : ∃ S', rankOne (fun v => decide (v = 0)) 2 2 exFactor [(0, 4), (1, 2)] = some S' ∧ factorGram 2 S' 0 0 = 25 ∧ factorGram 2 S' 0 1 = 11 ∧ factorGram 2 S' 1 1 = 21 := by
  obtain ⟨S', h, _, _, hg⟩ := C126_rank_one (fun v => decide (v = 0)) (fun v h => of_decide_eq_true h) 2 exFactor [(0, 4), (1, 2)] exFactor_valid.1 exFactor_valid.2 (by simp [Ascending]) (by simp)
  obtain ⟨g1, g2, g3⟩ := exFactor_gram
  refine ⟨S', h, ?_, ?_, ?_⟩ <;> rw [hg] <;> simp only [g1, g2, g3] <;> norm_num [entryOf]

/-- Removing the first row leaves the factor of the matrix 17. -/
example : ∃ S', removeFactorRow (fun v => decide (v = 0)) 2 0 exFactor = some S' ∧ factorGram 1 S' 0 0 = 17 := by
  obtain ⟨S', h, _, _, hg⟩ := C126_remove_row (fun v => decide (v = 0)) (fun v h => of_decide_eq_true h) 2 0 (by omega) exFactor exFactor_valid.1 exFactor_valid.2
  exact ⟨S', h, by rw [hg 0 0 (by omega) (by omega)]; simpa using exFactor_gram.2.2⟩

/-- A row with two entries that fills its array, the second of which is the diagonal. -/
example : scanPast { num := 2, cap := 2, idx := fun p => p, val := fun _ => 1 } (fun _ => 0) 1 10 0 = none :=
  C126_scan_undefined _ _ 1 rfl (fun p hp => by have : p < 2 := hp; show p ≤ 1; omega) 10 0

/-- A row with a free cell. -/
example : scanPast { num := 2, cap := 3, idx := fun p => p, val := fun _ => 1 } (fun _ => 0) 1 10 0 = some 2 :=
  C126_scan_partial _ _ 1 2 (le_refl 2) (by show 2 < 3; omega) (fun p hp => by show p ≤ 1; omega) (Or.inl rfl) 10 0 (by omega) (by omega)

end VoroCrust
