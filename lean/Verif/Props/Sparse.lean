import Verif.Model.Sparse
import Mathlib.Algebra.BigOperators.Intervals
import Mathlib.Tactic.Ring
import Mathlib.Tactic.Linarith
import Mathlib.Tactic.SplitIfs

/-! # Sparse vectors: C45, C46 -/

namespace VoroCrust

variable {R : Type}

/-! ## Representation -/

/-- The arrays hold the finite map `m`: indices strictly increasing, every entry of `m` present, nothing else. -/
structure SpRep (v : SpVec R) (m : Nat → Option R) : Prop where
  fits : v.num ≤ v.cap
  pos : 0 < v.cap
  sorted : ∀ i j, i < j → j < v.num → v.idx i < v.idx j
  sound : ∀ i, i < v.num → m (v.idx i) = some (v.val i)
  complete : ∀ r x, m r = some x → ∃ i, i < v.num ∧ v.idx i = r

/-- A null pointer holds the empty map. -/
def PtrRep : Option (SpVec R) → (Nat → Option R) → Prop
  | none, m => ∀ r, m r = none
  | some v, m => SpRep v m

theorem findPos_spec {v : SpVec R} {m : Nat → Option R} (h : SpRep v m) (row fuel l r : Nat) (hlr : l ≤ r) (hr : r < v.num)
    (hf : r - l < fuel) (hlo : ∀ i, i < l → v.idx i < row) (hhi : ∀ i, r < i → i < v.num → row < v.idx i) :
    ∃ p, findPos v row fuel l r = some p ∧ p < v.num ∧
      (v.idx p = row ∨ v.idx p ≠ row ∧ (∀ i, i < p → v.idx i < row) ∧ ∀ i, p < i → i < v.num → row < v.idx i) := by
  induction fuel generalizing l r with
  | zero => omega
  | succ fuel ih =>
    rw [findPos]
    have h1 : l ≤ (l + r) / 2 := by omega
    have h2 : (l + r) / 2 ≤ r := by omega
    set p := (l + r) / 2 with hp
    rw [if_pos (by omega)]
    have hbelow : ∀ i, i < p → v.idx i < v.idx p := fun i hi => h.sorted i p hi (by omega)
    have habove : ∀ i, p < i → i < v.num → v.idx p < v.idx i := fun i hi hin => h.sorted p i hi hin
    by_cases e1 : v.idx p = row
    · rw [if_pos e1]; exact ⟨p, rfl, by omega, Or.inl e1⟩
    rw [if_neg e1]
    by_cases e2 : l = r
    · rw [if_pos e2]
      exact ⟨p, rfl, by omega, Or.inr ⟨e1, fun i hi => hlo i (by omega), fun i hi hin => hhi i (by omega) hin⟩⟩
    rw [if_neg e2]
    by_cases e3 : v.idx p < row ∧ p + 1 ≤ r
    · rw [if_pos e3]
      refine ih (p + 1) r e3.2 hr (by omega) (fun i hi => ?_) hhi
      rcases Nat.lt_succ_iff_lt_or_eq.1 hi with hi | hi
      · exact (hbelow i hi).trans e3.1
      · rw [hi]; exact e3.1
    rw [if_neg e3]
    by_cases e4 : row < v.idx p ∧ l + 1 ≤ p
    · rw [if_pos e4]
      refine ih l (p - 1) (by omega) (by omega) (by omega) hlo (fun i hi hin => ?_)
      by_cases hip : i = p
      · rw [hip]; exact e4.1
      · exact e4.1.trans (habove i (by omega) hin)
    rw [if_neg e4]
    refine ⟨p, rfl, by omega, Or.inr ⟨e1, ?_, ?_⟩⟩
    · intro i hi
      by_cases hlt : v.idx p < row
      · exact (hbelow i hi).trans hlt
      · exact hlo i (by omega)
    · intro i hi hin
      by_cases hlt : row < v.idx p
      · exact hlt.trans (habove i hi hin)
      · exact hhi i (by omega) hin

theorem findPos_top {v : SpVec R} {m : Nat → Option R} (h : SpRep v m) (row : Nat) (h0 : v.num ≠ 0) :
    ∃ p, findPos v row v.num 0 (v.num - 1) = some p ∧ p < v.num ∧
      (v.idx p = row ∨ v.idx p ≠ row ∧ (∀ i, i < p → v.idx i < row) ∧ ∀ i, p < i → i < v.num → row < v.idx i) :=
  findPos_spec h row v.num 0 (v.num - 1) (by omega) (by omega) (by omega) (fun i hi => by omega) (fun i hi hin => by omega)

theorem SpRep.absent {v : SpVec R} {m : Nat → Option R} (h : SpRep v m) {row p : Nat} (hne : v.idx p ≠ row)
    (hlo : ∀ i, i < p → v.idx i < row) (hhi : ∀ i, p < i → i < v.num → row < v.idx i) : m row = none := by
  cases hm : m row with
  | none => rfl
  | some x =>
    obtain ⟨i, hi, e⟩ := h.complete row x hm
    exfalso
    rcases Nat.lt_trichotomy i p with hip | hip | hip
    · have := hlo i hip; omega
    · rw [hip] at e; exact hne e
    · have := hhi i hip hi; omega

theorem SpRep.inj {v : SpVec R} {m : Nat → Option R} (h : SpRep v m) {i j : Nat} (hi : i < v.num) (hj : j < v.num)
    (e : v.idx i = v.idx j) : i = j := by
  rcases Nat.lt_trichotomy i j with h1 | h1 | h1
  · have := h.sorted i j h1 hj; omega
  · exact h1
  · have := h.sorted j i h1 hi; omega

/-! ## The two shifts -/

theorem shiftDown_spec (n j : Nat) (v : SpVec R) (h : n = 0 ∨ j + n < v.num) :
    ∃ v', shiftDown n j v = some v' ∧ v'.num = v.num ∧ v'.cap = v.cap ∧
      (∀ k, v'.idx k = if j ≤ k ∧ k < j + n then v.idx (k + 1) else v.idx k) ∧
      (∀ k, v'.val k = if j ≤ k ∧ k < j + n then v.val (k + 1) else v.val k) := by
  induction n generalizing j v with
  | zero => exact ⟨v, rfl, rfl, rfl, fun k => by rw [if_neg (by omega)], fun k => by rw [if_neg (by omega)]⟩
  | succ n ih =>
    have hj : j + (n + 1) < v.num := by omega
    obtain ⟨v', e, h1, h2, h3, h4⟩ := ih (j + 1) { v with idx := upd v.idx j (v.idx (j + 1)), val := upd v.val j (v.val (j + 1)) } (by
      right; show j + 1 + n < v.num; omega)
    refine ⟨v', by rw [shiftDown, if_pos (by omega)]; exact e, h1, h2, fun k => ?_, fun k => ?_⟩
    · rw [h3]
      simp only [upd]
      split_ifs <;> first | rfl | omega | (subst_vars; rfl)
    · rw [h4]
      simp only [upd]
      split_ifs <;> first | rfl | omega | (subst_vars; rfl)

theorem shiftUp_spec (n q : Nat) (v : SpVec R) (h : n = 0 ∨ q + n < v.cap) :
    ∃ v', shiftUp n (q + n) v = some v' ∧ v'.num = v.num ∧ v'.cap = v.cap ∧
      (∀ k, v'.idx k = if q < k ∧ k ≤ q + n then v.idx (k - 1) else v.idx k) ∧
      (∀ k, v'.val k = if q < k ∧ k ≤ q + n then v.val (k - 1) else v.val k) := by
  induction n generalizing v with
  | zero => exact ⟨v, rfl, rfl, rfl, fun k => by rw [if_neg (by omega)], fun k => by rw [if_neg (by omega)]⟩
  | succ n ih =>
    have hj : q + (n + 1) < v.cap := by omega
    obtain ⟨v', e, h1, h2, h3, h4⟩ := ih { v with idx := upd v.idx (q + (n + 1)) (v.idx (q + (n + 1) - 1)), val := upd v.val (q + (n + 1)) (v.val (q + (n + 1) - 1)) } (by
      right; show q + n < v.cap; omega)
    refine ⟨v', by rw [shiftUp, if_pos hj, show q + (n + 1) - 1 = q + n by omega]; exact e, h1, h2, fun k => ?_, fun k => ?_⟩
    · rw [h3]
      simp only [upd]
      split_ifs <;> first | rfl | omega | (subst_vars; rfl)
    · rw [h4]
      simp only [upd]
      split_ifs <;> first | rfl | omega | (subst_vars; rfl)

/-! ## Setting and getting an entry -/

theorem growVec_rep {v : SpVec R} {m : Nat → Option R} (h : SpRep v m) : SpRep (growVec v) m ∧ (growVec v).num < (growVec v).cap ∧
    (growVec v).num = v.num ∧ (growVec v).idx = v.idx := by
  unfold growVec
  have := h.pos
  split
  · exact ⟨⟨by show v.num ≤ v.cap * 2; omega, by show 0 < v.cap * 2; omega, h.sorted, h.sound, h.complete⟩, by show v.num < v.cap * 2; omega, rfl, rfl⟩
  · exact ⟨h, by have := h.fits; omega, rfl, rfl⟩

theorem insertAt_rep {v : SpVec R} {m : Nat → Option R} (h : SpRep v m) (hcap : v.num < v.cap) (row p : Nat) (x : R) (hp : p < v.num)
    (hne : v.idx p ≠ row) (hlo : ∀ i, i < p → v.idx i < row) (hhi : ∀ i, p < i → i < v.num → row < v.idx i) :
    ∃ v', insertAt v row x p = some v' ∧ SpRep v' (Function.update m row (some x)) := by
  have habs := h.absent hne hlo hhi
  obtain ⟨q, hq, hqlo, hqhi, hqn⟩ : ∃ q, (if v.idx (backUp v row p) < row then backUp v row p + 1 else backUp v row p) = q ∧
      (∀ i, i < q → v.idx i < row) ∧ (∀ i, q ≤ i → i < v.num → row < v.idx i) ∧ q ≤ v.num := by
    by_cases hlt : v.idx p < row
    · have hb : backUp v row p = p := by
        cases p with
        | zero => rfl
        | succ p => rw [backUp, if_neg (by omega)]
      rw [hb, if_pos hlt]
      refine ⟨p + 1, rfl, fun i hi => ?_, fun i hi hin => hhi i (by omega) hin, by omega⟩
      by_cases hip : i = p
      · rw [hip]; exact hlt
      · exact hlo i (by omega)
    · have hgt : row < v.idx p := by omega
      cases p with
      | zero =>
        rw [backUp, if_neg hlt]
        refine ⟨0, rfl, fun i hi => by omega, fun i hi hin => ?_, by omega⟩
        by_cases hip : i = 0
        · rw [hip]; exact hgt
        · exact hhi i (by omega) hin
      | succ p =>
        have hb : backUp v row (p + 1) = p := by
          rw [backUp, if_pos hgt]
          have hpl := hlo p (by omega)
          cases p with
          | zero => rfl
          | succ p => rw [backUp, if_neg (by omega)]
        rw [hb, if_pos (hlo p (by omega))]
        refine ⟨p + 1, rfl, hlo, fun i hi hin => ?_, by omega⟩
        by_cases hip : i = p + 1
        · rw [hip]; exact hgt
        · exact hhi i (by omega) hin
  obtain ⟨v', e, h1, h2, h3, h4⟩ := shiftUp_spec (v.num - q) q v (by right; omega)
  rw [show q + (v.num - q) = v.num by omega] at e h3 h4
  refine ⟨{ v' with num := v'.num + 1, idx := upd v'.idx q row, val := upd v'.val q x }, ?_, ?_⟩
  · unfold insertAt
    simp only [hq, e]
    rw [if_pos (by omega)]
  · have ki : ∀ k, upd v'.idx q row k = if k < q then v.idx k else if k = q then row else if k ≤ v.num then v.idx (k - 1) else v.idx k := by
      intro k
      simp only [upd, h3]
      split_ifs <;> first | rfl | omega
    have kv : ∀ k, upd v'.val q x k = if k < q then v.val k else if k = q then x else if k ≤ v.num then v.val (k - 1) else v.val k := by
      intro k
      simp only [upd, h4]
      split_ifs <;> first | rfl | omega
    refine ⟨by show v'.num + 1 ≤ v'.cap; omega, by show 0 < v'.cap; have := h.pos; omega, ?_, ?_, ?_⟩
    · intro i j hij hj
      have hj' : j < v.num + 1 := by rw [← h1]; exact hj
      show upd v'.idx q row i < upd v'.idx q row j
      rw [ki, ki]
      split_ifs <;> first | omega | skip
      · exact h.sorted i j hij (by omega)
      · exact hqlo i (by omega)
      · rename_i a b c d; exact h.sorted i (j - 1) (by omega) (by omega)
      · exact hqhi (j - 1) (by omega) (by omega)
      · exact h.sorted (i - 1) (j - 1) (by omega) (by omega)
    · intro i hi
      have hi' : i < v.num + 1 := by rw [← h1]; exact hi
      show Function.update m row (some x) (upd v'.idx q row i) = some (upd v'.val q x i)
      rw [ki, kv]
      have hupd : ∀ k, k < v.num → Function.update m row (some x) (v.idx k) = some (v.val k) := by
        intro k hk
        rw [Function.update_of_ne, h.sound k hk]
        intro hc
        have := h.sound k hk
        rw [hc, habs] at this
        simp at this
      split_ifs <;> first | omega | skip
      · exact hupd i (by omega)
      · exact Function.update_self ..
      · exact hupd (i - 1) (by omega)
    · intro r y hy
      show ∃ i, i < v'.num + 1 ∧ upd v'.idx q row i = r
      by_cases hr : r = row
      · exact ⟨q, by omega, by rw [ki, if_neg (by omega), if_pos rfl, hr]⟩
      · rw [Function.update_of_ne hr] at hy
        obtain ⟨i, hi, e'⟩ := h.complete r y hy
        by_cases hiq : i < q
        · exact ⟨i, by omega, by rw [ki, if_pos hiq, e']⟩
        · exact ⟨i + 1, by omega, by rw [ki, if_neg (by omega), if_neg (by omega), if_pos (by omega), Nat.add_sub_cancel, e']⟩

theorem deleteAt_rep {v : SpVec R} {m : Nat → Option R} (h : SpRep v m) (p : Nat) (hp : p < v.num) :
    ∃ v', shiftDown (v.num - 1 - p) p v = some v' ∧ SpRep { v' with num := v'.num - 1 } (Function.update m (v.idx p) none) := by
  obtain ⟨v', e, h1, h2, h3, h4⟩ := shiftDown_spec (v.num - 1 - p) p v (by omega)
  rw [show p + (v.num - 1 - p) = v.num - 1 by omega] at h3 h4
  refine ⟨v', e, by show v'.num - 1 ≤ v'.cap; have := h.fits; omega, by show 0 < v'.cap; have := h.pos; omega, ?_, ?_, ?_⟩
  · intro i j hij hj
    have hj' : j < v.num - 1 := by rw [← h1]; exact hj
    show v'.idx i < v'.idx j
    rw [h3, h3]
    split_ifs <;> exact h.sorted _ _ (by omega) (by omega)
  · intro i hi
    have hi' : i < v.num - 1 := by rw [← h1]; exact hi
    show Function.update m (v.idx p) none (v'.idx i) = some (v'.val i)
    rw [h3, h4]
    have hupd : ∀ k, k < v.num → k ≠ p → Function.update m (v.idx p) none (v.idx k) = some (v.val k) := by
      intro k hk hkp
      rw [Function.update_of_ne, h.sound k hk]
      exact fun hc => hkp (h.inj hk hp hc)
    split_ifs
    · exact hupd (i + 1) (by omega) (by omega)
    · exact hupd i (by omega) (by omega)
  · intro r x hr
    show ∃ i, i < v'.num - 1 ∧ v'.idx i = r
    by_cases hrp : r = v.idx p
    · rw [hrp, Function.update_self] at hr; simp at hr
    · rw [Function.update_of_ne hrp] at hr
      obtain ⟨i, hi, e'⟩ := h.complete r x hr
      have hip : i ≠ p := fun hc => hrp (by rw [← e', hc])
      by_cases hlt : i < p
      · exact ⟨i, by omega, by rw [h3, if_neg (by omega), e']⟩
      · exact ⟨i - 1, by omega, by rw [h3, if_pos (by omega), show i - 1 + 1 = i by omega, e']⟩

/-- The map after a write. -/
def writeMap (small : R → Bool) (row : Nat) (x : R) (m : Nat → Option R) : Nat → Option R :=
  Function.update m row (if small x then none else some x)

theorem setEntry_rep (small : R → Bool) (row : Nat) (x : R) (v : Option (SpVec R)) (m : Nat → Option R) (h : PtrRep v m) :
    ∃ v', setEntry small row x v = some v' ∧ PtrRep v' (writeMap small row x m) ∧ (v ≠ none → v' ≠ none) := by
  unfold writeMap
  cases v with
  | none =>
    have h : ∀ r, m r = none := h
    unfold setEntry
    by_cases hs : small x = true
    · rw [if_pos hs, if_pos hs]
      refine ⟨none, rfl, fun r => ?_, by simp⟩
      by_cases hr : r = row
      · rw [hr, Function.update_self]
      · rw [Function.update_of_ne hr]; exact h r
    · rw [if_neg hs, if_neg hs]
      refine ⟨_, rfl, ⟨by show 1 ≤ 10; omega, by show 0 < 10; omega, fun i j hij hj => ?_, fun i hi => ?_, fun r y hy => ?_⟩, by simp⟩
      · have : j < 1 := hj; omega
      · exact Function.update_self ..
      · by_cases hr : r = row
        · exact ⟨0, by show 0 < 1; omega, hr.symm⟩
        · rw [Function.update_of_ne hr, h r] at hy; simp at hy
  | some v =>
    have h : SpRep v m := h
    simp only [setEntry]
    by_cases h0 : v.num = 0
    · rw [if_pos h0]
      have hempty : ∀ r, m r = none := by
        intro r
        cases hm : m r with
        | none => rfl
        | some y => obtain ⟨i, hi, _⟩ := h.complete r y hm; omega
      by_cases hs : small x = true
      · rw [if_pos hs, if_pos hs]
        refine ⟨_, rfl, ?_, by simp⟩
        have : Function.update m row none = m := by
          rw [Function.update_eq_self_iff, hempty]
        rw [this]; exact h
      · rw [if_neg hs, if_neg hs, if_pos h.pos]
        refine ⟨_, rfl, ⟨by show 1 ≤ v.cap; exact h.pos, h.pos, fun i j hij hj => ?_, fun i hi => ?_, fun r y hy => ?_⟩, by simp⟩
        · have : j < 1 := hj; omega
        · have : i < 1 := hi
          have h0' : i = 0 := by omega
          show Function.update m row (some x) (upd v.idx 0 row i) = some (upd v.val 0 x i)
          rw [h0']; simp [upd]
        · by_cases hr : r = row
          · exact ⟨0, by show 0 < 1; omega, by show upd v.idx 0 row 0 = r; simp [upd, hr]⟩
          · rw [Function.update_of_ne hr, hempty r] at hy; simp at hy
    · rw [if_neg h0]
      obtain ⟨p, e, hp, hcase⟩ := findPos_top h row h0
      simp only [e]
      rcases hcase with hrow | ⟨hne, hlo, hhi⟩
      · rw [if_pos hrow]
        by_cases hs : small x = true
        · rw [if_pos hs, if_pos hs]
          obtain ⟨v', e', h'⟩ := deleteAt_rep h p hp
          rw [e', ← hrow]
          exact ⟨_, rfl, h', by simp⟩
        · rw [if_neg hs, if_neg hs]
          refine ⟨_, rfl, ⟨h.fits, h.pos, h.sorted, fun i hi => ?_, fun r y hy => ?_⟩, by simp⟩
          · show Function.update m row (some x) (v.idx i) = some (upd v.val p x i)
            simp only [upd]
            by_cases hip : i = p
            · rw [if_pos hip, hip, hrow, Function.update_self]
            · rw [if_neg hip, Function.update_of_ne, h.sound i hi]
              exact fun hc => hip (h.inj hi hp (hc.trans hrow.symm))
          · by_cases hr : r = row
            · exact ⟨p, hp, by rw [hr]; exact hrow⟩
            · rw [Function.update_of_ne hr] at hy; exact h.complete r y hy
      · rw [if_neg hne]
        have habs := h.absent hne hlo hhi
        by_cases hs : small x = true
        · rw [if_pos hs, if_pos hs]
          refine ⟨_, rfl, ?_, by simp⟩
          have : Function.update m row none = m := by rw [Function.update_eq_self_iff, habs]
          rw [this]; exact h
        · rw [if_neg hs, if_neg hs]
          obtain ⟨g1, g2, g3, g4⟩ := growVec_rep h
          obtain ⟨v', e', h'⟩ := insertAt_rep g1 g2 row p x (by omega) (by rw [g4]; exact hne) (by rw [g4]; exact hlo) (by rw [g4, g3]; exact hhi)
          exact ⟨some v', by rw [e']; rfl, h', by simp⟩

theorem getEntry_rep [Zero R] (row : Nat) (v : SpVec R) (m : Nat → Option R) (h : SpRep v m) :
    getEntry row (some v) = some ((m row).getD 0) := by
  simp only [getEntry]
  by_cases h0 : v.num = 0
  · rw [if_pos h0]
    cases hm : m row with
    | none => rfl
    | some y => obtain ⟨i, hi, _⟩ := h.complete row y hm; omega
  · rw [if_neg h0]
    obtain ⟨p, e, hp, hcase⟩ := findPos_top h row h0
    simp only [e]
    rcases hcase with hrow | ⟨hne, hlo, hhi⟩
    · rw [if_pos hrow, ← hrow, h.sound p hp]; rfl
    · rw [if_neg hne, h.absent hne hlo hhi]; rfl

/-! ## C45 -/

/-- The last value written to `row`, or nothing. -/
def lastWrite (ops : List (Nat × R)) (row : Nat) : Option R := ((ops.filter fun p => p.1 == row).getLast?).map Prod.snd

/-- What a reader expects after the writes `ops`: the last value written, zero if it was negligible or never written. -/
def expected [Zero R] (small : R → Bool) (ops : List (Nat × R)) (row : Nat) : R :=
  match lastWrite ops row with
  | none => 0
  | some x => if small x then 0 else x

theorem setEntries_rep (small : R → Bool) (ops : List (Nat × R)) (v : Option (SpVec R)) (m : Nat → Option R) (h : PtrRep v m) :
    ∃ v', setEntries small ops v = some v' ∧ PtrRep v' (ops.foldl (fun m p => writeMap small p.1 p.2 m) m) := by
  induction ops generalizing v m with
  | nil => exact ⟨v, rfl, h⟩
  | cons op ops ih =>
    obtain ⟨v1, e1, h1, -⟩ := setEntry_rep small op.1 op.2 v m h
    obtain ⟨v2, e2, h2⟩ := ih v1 _ h1
    exact ⟨v2, by rw [show op = (op.1, op.2) from rfl, setEntries, e1]; exact e2, h2⟩

theorem foldl_writeMap (small : R → Bool) (ops : List (Nat × R)) (row : Nat) :
    (ops.foldl (fun m p => writeMap small p.1 p.2 m) fun _ => none) row =
      (lastWrite ops row).bind fun x => if small x then none else some x := by
  induction ops using List.reverseRecOn with
  | nil => rfl
  | append_singleton ops op ih =>
    rw [List.foldl_append, List.foldl_cons, List.foldl_nil]
    rw [writeMap]
    by_cases h : op.1 = row
    · subst h
      rw [Function.update_self]
      unfold lastWrite
      rw [List.filter_append]
      simp
    · rw [Function.update_of_ne (Ne.symm h), ih]
      unfold lastWrite
      rw [List.filter_append]
      simp [h]

/-- **C45.** After any history of writes, starting from the null pointer: no write leaves the allocation, the stored indices are
strictly increasing, and every read returns the last value written to that index, or zero if that value was negligible or
the index was never written. -/
theorem C45_sparse_vector_is_a_map [Zero R] (small : R → Bool) (ops : List (Nat × R)) :
    ∃ v, setEntries small ops none = some v ∧
      (∀ w, v = some w → w.num ≤ w.cap ∧ (∀ i j, i < j → j < w.num → w.idx i < w.idx j) ∧
        (∀ i, i < w.num → small (w.val i) = false) ∧
        ∀ row, getEntry row v = some (expected small ops row)) ∧
      (v = none ↔ ∀ p ∈ ops, small p.2 = true) := by
  obtain ⟨v, e, h⟩ := setEntries_rep small ops none (fun _ => none) (fun _ => rfl)
  have hget : ∀ row w, v = some w → getEntry row v = some (expected small ops row) := by
    intro row w hw
    subst hw
    rw [getEntry_rep row w _ h, foldl_writeMap]
    unfold expected
    cases lastWrite ops row with
    | none => rfl
    | some x => simp only [Option.bind_some]; split <;> rfl
  refine ⟨v, e, fun w hw => ⟨?_, ?_, ?_, fun row => hget row w hw⟩, ?_⟩
  · subst hw; exact SpRep.fits h
  · subst hw; exact SpRep.sorted h
  · subst hw
    intro i hi
    have := SpRep.sound h i hi
    rw [foldl_writeMap] at this
    obtain ⟨x, -, hx⟩ := Option.bind_eq_some_iff.1 this
    split at hx
    · simp at hx
    · rename_i hs
      rw [← Option.some.inj hx]; simpa using hs
  · -- the pointer stays null exactly while nothing has been stored
    have key : ∀ (ops : List (Nat × R)) (u w : Option (SpVec R)), setEntries small ops u = some w → (w = none ↔ u = none ∧ ∀ p ∈ ops, small p.2 = true) := by
      intro ops
      induction ops with
      | nil => intro u w hw; rw [setEntries] at hw; rw [← Option.some.inj hw]; simp
      | cons op ops ih =>
        intro u w hw
        rw [show op = (op.1, op.2) from rfl, setEntries] at hw
        split at hw
        · simp at hw
        · rename_i u1 e1
          rw [ih u1 w hw, List.forall_mem_cons]
          have : u1 = none ↔ u = none ∧ small op.2 = true := by
            cases u with
            | none =>
              simp only [setEntry] at e1
              split at e1
              · rename_i hs; rw [← Option.some.inj e1]; simp [hs]
              · rename_i hs; rw [← Option.some.inj e1]; simp [hs]
            | some u =>
              have hne : u1 ≠ none := by
                intro hc
                subst hc
                simp only [setEntry] at e1
                split_ifs at e1 <;> try simp at e1
                all_goals (split at e1 <;> try simp at e1)
                all_goals (split_ifs at e1 <;> try simp at e1)
                all_goals (split at e1 <;> simp at e1)
              simp [hne]
          rw [this]
          simp [and_assoc]
    simpa using key ops none v e

/-- **C45, precondition.** Reading through the null pointer, as after writes of negligible values only, is undefined. -/
theorem C45_null_read_undefined [Zero R] (row : Nat) : getEntry row (none : Option (SpVec R)) = none := rfl

-- twelve writes in falling order: the capacity doubles, then one entry is overwritten and one deleted
example : (setEntries (fun x : Int => x == 0) [(11, 1), (10, 2), (9, 3), (8, 4), (7, 5), (6, 6), (5, 7), (4, 8), (3, 9), (2, 10), (1, 11), (0, 12), (5, 70), (6, 0)] none).map
    (fun v => v.map fun w => (w.cap, w.num, (List.range w.num).map w.idx, (List.range w.num).map w.val)) =
    some (some (20, 11, [0, 1, 2, 3, 4, 5, 7, 8, 9, 10, 11], [12, 11, 10, 9, 8, 70, 5, 4, 3, 2, 1])) := by decide +kernel

example : (setEntries (fun x : Int => x == 0) [(4, 1), (2, 5), (4, 0)] none).bind (fun v => getEntry 2 v) = some 5 := by decide
example : (setEntries (fun x : Int => x == 0) [(4, 1), (2, 5), (4, 0)] none).bind (fun v => getEntry 4 v) = some 0 := by decide

/-! ## C46 -/

section Dot
variable [CommRing R]

/-- The value at an index, zero where nothing is stored. -/
def valueAt (m : Nat → Option R) (r : Nat) : R := (m r).getD 0

theorem dotLoop_spec {a : SpVec R} {m : Nat → Option R} (h : SpRep a m) (look : Nat → Option R) (g : Nat → R) (lo hi : Nat)
    (hlook : ∀ r, lo ≤ r → r ≤ hi → look r = some (g r)) (n i : Nat) (hn : i + n = a.num) (acc : R) :
    dotLoop look a lo hi n i acc = some (acc + ∑ k ∈ Finset.Ico i a.num, if lo ≤ a.idx k ∧ a.idx k ≤ hi then a.val k * g (a.idx k) else 0) := by
  induction n generalizing i acc with
  | zero =>
    rw [dotLoop, show i = a.num by omega]; simp
  | succ n ih =>
    rw [dotLoop]
    have hI : Finset.Ico i a.num = insert i (Finset.Ico (i + 1) a.num) := by
      ext k; simp only [Finset.mem_Ico, Finset.mem_insert]; omega
    have hnot : i ∉ Finset.Ico (i + 1) a.num := by simp
    by_cases h1 : a.idx i < lo
    · rw [if_pos h1, ih (i + 1) (by omega), hI, Finset.sum_insert hnot, if_neg (by omega)]; simp
    · rw [if_neg h1]
      by_cases h2 : hi < a.idx i
      · rw [if_pos h2]
        rw [Finset.sum_eq_zero]
        · simp
        · intro k hk
          have hk' := Finset.mem_Ico.1 hk
          rw [if_neg]
          rintro ⟨-, hc⟩
          have : a.idx i ≤ a.idx k := by
            by_cases hik : i = k
            · rw [hik]
            · exact (h.sorted i k (by omega) hk'.2).le
          omega
      · rw [if_neg h2, hlook _ (by omega) (by omega)]
        simp only
        rw [ih (i + 1) (by omega), hI, Finset.sum_insert hnot, if_pos (by omega), add_assoc]

/-- The sum over the stored entries is the sum over all indices. -/
theorem sum_entries {a : SpVec R} {m : Nat → Option R} (h : SpRep a m) (g : Nat → R) (lo hi : Nat) :
    ∑ k ∈ Finset.Ico 0 a.num, (if lo ≤ a.idx k ∧ a.idx k ≤ hi then a.val k * g (a.idx k) else 0) =
      ∑ r ∈ Finset.Icc lo hi, valueAt m r * g r := by
  rw [← Finset.sum_filter]
  symm
  have hsub : ((Finset.Ico 0 a.num).filter fun k => lo ≤ a.idx k ∧ a.idx k ≤ hi).image a.idx ⊆ Finset.Icc lo hi := by
    intro r hr
    obtain ⟨k, hk, rfl⟩ := Finset.mem_image.1 hr
    exact Finset.mem_Icc.2 (Finset.mem_filter.1 hk).2
  rw [← Finset.sum_subset hsub, Finset.sum_image]
  · apply Finset.sum_congr rfl
    intro k hk
    have hk' := Finset.mem_filter.1 hk
    unfold valueAt
    rw [h.sound k (Finset.mem_Ico.1 hk'.1).2]; rfl
  · intro i hi' j hj e
    have hi'' := (Finset.mem_filter.1 hi').1
    have hj'' := (Finset.mem_filter.1 hj).1
    exact h.inj (Finset.mem_Ico.1 hi'').2 (Finset.mem_Ico.1 hj'').2 e
  · intro r hr hnr
    unfold valueAt
    cases hm : m r with
    | none => simp
    | some x =>
      obtain ⟨i, hi', e⟩ := h.complete r x hm
      exact absurd (Finset.mem_image.2 ⟨i, Finset.mem_filter.2 ⟨Finset.mem_Ico.2 ⟨by omega, hi'⟩, by rw [e]; exact Finset.mem_Icc.1 hr⟩, e⟩) hnr

/-- **C46, two sparse vectors.** For any two vectors and any index range the product is the sum over all indices of the range of
the products of the entries, with zero where nothing is stored (also for null pointers). -/
theorem C46_sparse_dot (a b : Option (SpVec R)) (ma mb : Nat → Option R) (ha : PtrRep a ma) (hb : PtrRep b mb) (lo hi : Nat) :
    sparseDot a b lo hi = some (∑ r ∈ Finset.Icc lo hi, valueAt ma r * valueAt mb r) := by
  unfold sparseDot
  cases a with
  | none =>
    have ha : ∀ r, ma r = none := ha
    rw [Finset.sum_eq_zero]
    intro r _; unfold valueAt; rw [ha]; simp
  | some a =>
    cases b with
    | none =>
      have hb : ∀ r, mb r = none := hb
      rw [Finset.sum_eq_zero]
      intro r _; unfold valueAt; rw [hb]; simp
    | some b =>
      have ha : SpRep a ma := ha
      have hb : SpRep b mb := hb
      simp only
      split
      · rw [dotLoop_spec ha _ (valueAt mb) lo hi (fun r _ _ => getEntry_rep r b mb hb) a.num 0 (by omega) 0, sum_entries ha]
        simp
      · rw [dotLoop_spec hb _ (valueAt ma) lo hi (fun r _ _ => getEntry_rep r a ma ha) b.num 0 (by omega) 0, sum_entries hb]
        simp only [zero_add, Option.some.injEq]
        exact Finset.sum_congr rfl fun r _ => mul_comm _ _

/-- **C46, sparse times dense.** Only dense cells in the range are read. -/
theorem C46_dense_dot (a : Option (SpVec R)) (ma : Nat → Option R) (ha : PtrRep a ma) (y : Nat → Option R) (g : Nat → R) (lo hi : Nat)
    (hy : ∀ r, lo ≤ r → r ≤ hi → y r = some (g r)) :
    denseDot a y lo hi = some (∑ r ∈ Finset.Icc lo hi, valueAt ma r * g r) := by
  unfold denseDot
  cases a with
  | none =>
    have ha : ∀ r, ma r = none := ha
    rw [Finset.sum_eq_zero]
    intro r _; unfold valueAt; rw [ha]; simp
  | some a =>
    have ha : SpRep a ma := ha
    simp only
    rw [dotLoop_spec ha _ g lo hi hy a.num 0 (by omega) 0, sum_entries ha]
    simp

/-- **C46 for the vectors a program can build.** -/
theorem C46_sparse_dot_of_histories (small : R → Bool) (ops₁ ops₂ : List (Nat × R)) (lo hi : Nat) :
    ∃ a b, setEntries small ops₁ none = some a ∧ setEntries small ops₂ none = some b ∧
      sparseDot a b lo hi = some (∑ r ∈ Finset.Icc lo hi, expected small ops₁ r * expected small ops₂ r) := by
  obtain ⟨a, ea, ha⟩ := setEntries_rep small ops₁ none (fun _ => none) (fun _ => rfl)
  obtain ⟨b, eb, hb⟩ := setEntries_rep small ops₂ none (fun _ => none) (fun _ => rfl)
  refine ⟨a, b, ea, eb, ?_⟩
  rw [C46_sparse_dot a b _ _ ha hb]
  have : ∀ ops r, valueAt (ops.foldl (fun m p => writeMap small p.1 p.2 m) fun _ => none) r = expected small ops r := by
    intro ops r
    unfold valueAt expected
    rw [foldl_writeMap]
    cases lastWrite ops r with
    | none => rfl
    | some x => simp only [Option.bind_some]; split <;> rfl
  simp only [this]

end Dot

-- (2: 5, 4: 1) · (1: 3, 2: 7, 4: 2) on 0..3 is 35, on 0..4 it is 37
example : ((setEntries (fun x : Int => x == 0) [(4, 1), (2, 5)] none).bind fun a => (setEntries (fun x : Int => x == 0) [(4, 2), (2, 7), (1, 3)] none).bind fun b =>
    (sparseDot a b 0 3).bind fun x => (sparseDot a b 0 4).map fun y => (x, y)) = some (35, 37) := by decide

end VoroCrust
