import Verif.Model.Adaptive
import Verif.Props.Random

/-! # Property C117: adaptive sampling of cells -/

namespace VoroCrust

/-! ## The cells that the threads update -/

theorem flatMap_range_mul {α : Type} (g : Nat → List α) (k : Nat) : ∀ T, ((List.range T).flatMap fun t => (List.range k).flatMap fun i => g (t * k + i)) = (List.range (T * k)).flatMap g := by
  intro T
  induction T with
  | zero => simp
  | succ T ih =>
    rw [List.range_succ, List.flatMap_append, ih, Nat.succ_mul, List.range_add, List.flatMap_append, List.flatMap_map]
    simp

theorem updatedCells_eq (threads : Nat) (h : 0 < threads) (nbrs : List Nat) (new : Nat) : updatedCells threads nbrs new = nbrs ++ [new] := by
  let g : Nat → List Nat := fun p => if p > nbrs.length then [] else if p < nbrs.length then [nbrs.getD p 0] else [new]
  have e : updatedCells threads nbrs new = (List.range (threads * (nbrs.length / threads + 1))).flatMap g := flatMap_range_mul g (nbrs.length / threads + 1) threads
  have hM : nbrs.length + 1 ≤ threads * (nbrs.length / threads + 1) := by
    have h1 := Nat.div_add_mod nbrs.length threads
    have h2 := Nat.mod_lt nbrs.length h
    rw [Nat.mul_add, Nat.mul_one]
    omega
  obtain ⟨m, hm⟩ : ∃ m, threads * (nbrs.length / threads + 1) = nbrs.length + 1 + m := ⟨_, (Nat.add_sub_cancel' hM).symm⟩
  rw [e, hm, List.range_add, List.flatMap_append, List.range_succ, List.flatMap_append, List.flatMap_map]
  have e1 : (List.range m).flatMap (fun i => g (nbrs.length + 1 + i)) = [] := by
    rw [List.flatMap_eq_nil_iff]
    intro i _
    simp only [g]
    rw [if_pos (by omega)]
  have e2 : [nbrs.length].flatMap g = [new] := by simp [g]
  have e3 : (List.range nbrs.length).flatMap g = nbrs := by
    have : ∀ p ∈ List.range nbrs.length, g p = [nbrs.getD p 0] := by
      intro p hp
      have hp := List.mem_range.1 hp
      simp only [g]
      rw [if_neg (by omega), if_pos hp]
    rw [List.flatMap_congr this, ← List.map_eq_flatMap]
    refine List.ext_getElem (by simp) fun i h1 h2 => ?_
    simp [h2]
  rw [e1, e2, e3, List.append_nil]

/-! ## One step -/

theorem integrateCells_spec (val : Nat → ℝ) : ∀ (is : List Nat) (s : AdaptState), (∀ i ∈ is, i < s.budget) →
    integrateCells val is s = some { s with weight := fun j => if j ∈ is then some (val j) else s.weight j } := by
  intro is
  induction is with
  | nil => intro s _; simp [integrateCells]
  | cons i is ih =>
    intro s h
    simp only [integrateCells, integrateCell, if_pos (h i (by simp))]
    rw [ih _ (by intro j hj; exact h j (by simp [hj]))]
    congr 2
    funext j
    by_cases h1 : j ∈ is
    · simp [h1]
    · by_cases h2 : j = i
      · subst h2; simp [h1]
      · simp [h1, h2]

theorem cdfLoop_spec {w : Nat → Option ℝ} {W : Nat → ℝ} (c : Nat → Option ℝ) : ∀ k, (∀ j, j < k → w j = some (W j)) →
    cdfLoop w k c = some fun i => if i < k then some (∑ j ∈ Finset.range (i + 1), W j) else c i := by
  intro k
  induction k with
  | zero => intro _; simp [cdfLoop]
  | succ k ih =>
    intro h
    simp only [cdfLoop, ih fun j hj => h j (by omega), h k (by omega)]
    have e : (if k = 0 then some 0 else if k - 1 < k then some (∑ j ∈ Finset.range (k - 1 + 1), W j) else c (k - 1)) = some (∑ j ∈ Finset.range k, W j) := by
      by_cases h0 : k = 0
      · subst h0; simp
      · rw [if_neg h0, if_pos (by omega), show k - 1 + 1 = k by omega]
    rw [e]
    simp only
    congr 1
    funext i
    by_cases hi : i = k
    · subst hi
      rw [Function.update_self, if_pos (by omega), Finset.sum_range_succ]
    · rw [Function.update_of_ne hi]
      by_cases h2 : i < k
      · rw [if_pos h2, if_pos (by omega)]
      · rw [if_neg h2, if_neg (by omega)]

theorem discreteCdf_lt {cdf : Nat → ℝ} {n : Nat} {v : ℝ} (h0 : 0 ≤ v) (h1 : v < 1) {fuel i : Nat} (h : discreteCdf cdf n v fuel = some i) : i < n := by
  unfold discreteCdf at h
  by_cases hn : n = 0
  · rw [if_pos hn] at h; simp at h
  rw [if_neg hn] at h
  by_cases hz : cdf (n - 1) = 0
  · rw [if_pos hz] at h
    have hnr : (0 : ℝ) < n := by exact_mod_cast Nat.pos_of_ne_zero hn
    have hlt : ⌊(n : ℝ) * v⌋₊ < n := by
      rw [Nat.floor_lt (by positivity)]
      nlinarith
    rw [if_neg hlt.ne] at h
    rw [← Option.some.inj h]
    exact hlt
  · rw [if_neg hz] at h
    generalize v * cdf (n - 1) = u at h
    generalize 0 = ist at h
    generalize n - 1 = iend at h
    induction fuel generalizing ist iend with
    | zero => simp [cdfSearch] at h
    | succ fuel ih =>
      simp only [cdfSearch] at h
      by_cases h1 : (ist + iend) / 2 < n
      · rw [if_pos h1] at h
        generalize (if (ist + iend) / 2 > 0 then cdf ((ist + iend) / 2 - 1) else 0) = lo at h
        by_cases h2 : lo ≤ u ∧ u ≤ cdf ((ist + iend) / 2)
        · rw [if_pos h2] at h
          rw [← Option.some.inj h]; exact h1
        · rw [if_neg h2] at h
          by_cases h3 : u < lo
          · rw [if_pos h3] at h
            exact ih _ _ h
          · rw [if_neg h3] at h
            exact ih _ _ h
      · rw [if_neg h1] at h; simp at h

/-! ## What can be reached -/

/-- The states that adding seeds one at a time and asking for suggestions lead to. -/
inductive AdaptReach (order threads budget : Nat) : AdaptState → Prop
  | init : AdaptReach order threads budget (adaptInit budget)
  | add {s s' : AdaptState} (nbrs : List Nat) (val : Nat → ℝ) (hs : AdaptReach order threads budget s) (hn : ∀ i ∈ nbrs, i < s.num) (h : addCellSeed order threads nbrs val s = some s') :
      AdaptReach order threads budget s'
  | suggest {s s' : AdaptState} {i : Option Nat} (v : ℝ) (val : Option ℝ) (hs : AdaptReach order threads budget s) (h0 : 0 ≤ v) (h1 : v < 1) (h : suggestSample v val s = some (i, s')) :
      AdaptReach order threads budget s'

/-- There is room for one more cell, and exactly the cells that are there have a weight and an entry in the table. -/
structure AdaptOk (s : AdaptState) : Prop where
  room : s.num < s.budget
  known : ∀ i, i < s.num → (s.weight i).isSome ∧ (s.cdf i).isSome
  unknown : ∀ i, s.num ≤ i → s.weight i = none

theorem adaptGrow_ok {s : AdaptState} (h1 : s.num ≤ s.budget) (h0 : 0 < s.num) (h2 : ∀ i, i < s.num → (s.weight i).isSome ∧ (s.cdf i).isSome) (h3 : ∀ i, s.num ≤ i → s.weight i = none) :
    AdaptOk (adaptGrow s) := by
  unfold adaptGrow
  split
  · rename_i h; exact ⟨by simp only; omega, h2, h3⟩
  · rename_i h; exact ⟨by omega, h2, h3⟩

theorem adaptGrow_same (s : AdaptState) : (adaptGrow s).num = s.num ∧ (adaptGrow s).weight = s.weight ∧ (adaptGrow s).cdf = s.cdf := by
  unfold adaptGrow; split <;> exact ⟨rfl, rfl, rfl⟩

/-- Adding a seed in order one or more, for the first or a later seed. -/
theorem addCellSeed_spec {order threads : Nat} (ho : 0 < order) (ht : 0 < threads) {nbrs : List Nat} (val : Nat → ℝ) {s : AdaptState} (hs : AdaptOk s) (hn : ∀ i ∈ nbrs, i < s.num) :
    ∃ (s' : AdaptState) (W : Nat → ℝ), addCellSeed order threads nbrs val s = some s' ∧ AdaptOk s' ∧ s'.num = s.num + 1 ∧ (∀ i, i < s'.num → s'.weight i = some (W i)) ∧ (∀ i ∈ nbrs, W i = val i) ∧
      W s.num = val s.num ∧ (∀ i, i < s.num → i ∉ nbrs → s.weight i = some (W i)) ∧ ∀ i, i < s'.num → s'.cdf i = some (∑ j ∈ Finset.range (i + 1), W j) := by
  by_cases h0 : s.num = 0
  · have hnb : nbrs = [] := List.eq_nil_iff_forall_not_mem.2 fun i hi => absurd (hn i hi) (by omega)
    let t : AdaptState := { s with weight := Function.update s.weight s.num (some (val s.num)), cdf := Function.update s.cdf s.num (some (val s.num)), num := s.num + 1 }
    have e : addCellSeed order threads nbrs val s = some (adaptGrow t) := by
      simp only [addCellSeed, if_pos hs.room, if_pos (Or.inl h0 : s.num = 0 ∨ order = 0), integrateCell, Function.update_self]
      rfl
    obtain ⟨g1, g2, g3⟩ := adaptGrow_same t
    refine ⟨adaptGrow t, val, e, adaptGrow_ok (s := t) hs.room (by simp only [t]; omega) ?_ ?_, g1, ?_, fun i _ => rfl, rfl, ?_, ?_⟩
    · intro i hi
      have : i = s.num := by simp only [t] at hi; omega
      subst this
      simp [t]
    · intro i hi
      simp only [t] at hi ⊢
      rw [Function.update_of_ne (by omega)]
      exact hs.unknown i (by omega)
    · intro i hi
      rw [g1] at hi
      have : i = s.num := by simp only [t] at hi; omega
      subst this
      rw [g2]
      simp [t]
    · intro i hi; omega
    · intro i hi
      rw [g1] at hi
      have : i = s.num := by simp only [t] at hi; omega
      subst this
      rw [g3, h0]
      simp [t, h0]
  · have hcells := updatedCells_eq threads ht nbrs s.num
    have hb : ∀ i ∈ nbrs ++ [s.num], i < s.budget := by
      intro i hi
      have := hs.room
      rcases List.mem_append.1 hi with h | h
      · have := hn i h; omega
      · simp only [List.mem_cons, List.not_mem_nil, or_false] at h; omega
    have hW : ∀ i, ∃ w : ℝ, i < s.num + 1 → (if i ∈ nbrs ++ [s.num] then some (val i) else s.weight i) = some w := by
      intro i
      by_cases hi : i ∈ nbrs ++ [s.num]
      · exact ⟨val i, fun _ => by rw [if_pos hi]⟩
      · by_cases hl : i < s.num
        · obtain ⟨w, hw⟩ := Option.isSome_iff_exists.1 (hs.known i hl).1
          exact ⟨w, fun _ => by rw [if_neg hi, hw]⟩
        · refine ⟨0, fun h => absurd ?_ hi⟩
          have : i = s.num := by omega
          simp [this]
    choose W hW using hW
    let t : AdaptState := { s with weight := fun j => if j ∈ nbrs ++ [s.num] then some (val j) else s.weight j,
                                   cdf := fun i => if i < s.num + 1 then some (∑ j ∈ Finset.range (i + 1), W j) else s.cdf i, num := s.num + 1 }
    have e : addCellSeed order threads nbrs val s = some (adaptGrow t) := by
      simp only [addCellSeed, if_pos hs.room]
      rw [if_neg (by omega), if_neg (by omega), hcells, if_pos (by simp), integrateCells_spec val _ s hb]
      simp only [cdfLoop_spec s.cdf (s.num + 1) fun j hj => hW j hj]
      rfl
    obtain ⟨g1, g2, g3⟩ := adaptGrow_same t
    refine ⟨adaptGrow t, W, e, adaptGrow_ok (s := t) hs.room (by simp only [t]; omega) ?_ ?_, g1, ?_, ?_, ?_, ?_, ?_⟩
    · intro i hi
      simp only [t] at hi ⊢
      rw [hW i hi, if_pos hi]
      simp
    · intro i hi
      simp only [t] at hi ⊢
      rw [if_neg ?_]
      · exact hs.unknown i (by omega)
      · intro hm
        rcases List.mem_append.1 hm with h | h
        · have := hn i h; omega
        · simp only [List.mem_cons, List.not_mem_nil, or_false] at h; omega
    · intro i hi
      rw [g1] at hi
      rw [g2]
      exact hW i hi
    · intro i hi
      have := hW i (by have := hn i hi; omega)
      rw [if_pos (by simp [hi])] at this
      exact (Option.some.inj this).symm
    · have := hW s.num (by omega)
      rw [if_pos (by simp)] at this
      exact (Option.some.inj this).symm
    · intro i hi hni
      have := hW i (by omega)
      rwa [if_neg (by simp [hni]; omega)] at this
    · intro i hi
      rw [g1] at hi
      rw [g3]
      exact if_pos hi

theorem AdaptReach.ok {order threads budget : Nat} (ho : 0 < order) (ht : 0 < threads) (hb : 0 < budget) {s : AdaptState} (h : AdaptReach order threads budget s) : AdaptOk s := by
  induction h with
  | init => exact ⟨hb, fun i hi => absurd hi (by simp [adaptInit]), fun i _ => rfl⟩
  | add nbrs val _ hn h ih =>
    obtain ⟨s', W, e, ok, -⟩ := addCellSeed_spec ho ht val ih hn
    rw [e] at h
    exact Option.some.inj h ▸ ok
  | @suggest s s' i v val _ h0 h1 h ih =>
    unfold suggestSample at h
    by_cases hz : s.num = 0
    · rw [if_pos hz] at h
      simp only [Option.some.injEq, Prod.mk.injEq] at h
      exact h.2 ▸ ih
    rw [if_neg hz] at h
    by_cases hr : cdfReadable s
    · rw [if_pos hr] at h
      cases hd : discreteCdf (fun i => (s.cdf i).getD 0) s.num v s.num with
      | none => rw [hd] at h; simp at h
      | some k =>
        rw [hd] at h
        have hk := discreteCdf_lt h0 h1 hd
        cases val with
        | none =>
          simp only [Option.some.injEq, Prod.mk.injEq] at h
          exact h.2 ▸ ih
        | some w =>
          simp only [Option.some.injEq, Prod.mk.injEq] at h
          rw [← h.2]
          refine ⟨ih.room, fun j hj => ⟨?_, (ih.known j hj).2⟩, fun j hj => ?_⟩
          · by_cases e : j = k
            · subst e; simp
            · simp only [Function.update_of_ne e]; exact (ih.known j hj).1
          · simp only [] at hj ⊢
            rw [Function.update_of_ne (by omega)]
            exact ih.unknown j hj
    · rw [if_neg hr] at h; simp at h

/-! ## The claims -/

/-- **C117.** With an order of at least one, adding a seed is always defined, however many were added before and whatever was suggested in between: the arrays have room, exactly the cells of the neighbours
and of the new seed get a new weight, whatever the number of threads, and afterwards entry `i` of the table is the sum of the current weights of the cells up to `i`. -/
theorem C117_table (order threads budget : Nat) (ho : 0 < order) (ht : 0 < threads) (hb : 0 < budget) (s : AdaptState) (hs : AdaptReach order threads budget s) (nbrs : List Nat)
    (hn : ∀ i ∈ nbrs, i < s.num) (val : Nat → ℝ) :
    ∃ (s' : AdaptState) (W : Nat → ℝ), addCellSeed order threads nbrs val s = some s' ∧ s'.num = s.num + 1 ∧ s'.num < s'.budget ∧ (∀ i, i < s'.num → s'.weight i = some (W i)) ∧
      (∀ i ∈ nbrs, W i = val i) ∧ W s.num = val s.num ∧ (∀ i, i < s.num → i ∉ nbrs → s.weight i = some (W i)) ∧ ∀ i, i < s'.num → s'.cdf i = some (∑ j ∈ Finset.range (i + 1), W j) := by
  obtain ⟨s', W, h1, h2, h3, h4⟩ := addCellSeed_spec ho ht val (hs.ok ho ht hb) hn
  exact ⟨s', W, h1, h3, h2.room, h4⟩

/-- **C117, the draw.** After a seed was added, if no weight is negative and not all are zero, the suggestion comes from the cell in whose share of the total weight the random number falls: cell `i` is drawn
with probability weight over total weight. -/
theorem C117_draw (order threads budget : Nat) (ho : 0 < order) (ht : 0 < threads) (hb : 0 < budget) (s s' : AdaptState) (hs : AdaptReach order threads budget s) (nbrs : List Nat)
    (hn : ∀ i ∈ nbrs, i < s.num) (val : Nat → ℝ) (ha : addCellSeed order threads nbrs val s = some s') (W : Nat → ℝ) (hW : ∀ i, i < s'.num → s'.weight i = some (W i)) (h0 : ∀ i, i < s'.num → 0 ≤ W i)
    (hpos : 0 < ∑ j ∈ Finset.range s'.num, W j) (v : ℝ) (hv : 0 ≤ v ∧ v < 1) (val' : Option ℝ) :
    ∃ i t, suggestSample v val' s' = some (some i, t) ∧ i < s'.num ∧ ∑ j ∈ Finset.range i, W j ≤ v * ∑ j ∈ Finset.range s'.num, W j ∧
      v * ∑ j ∈ Finset.range s'.num, W j ≤ ∑ j ∈ Finset.range (i + 1), W j := by
  obtain ⟨s1, W1, e1, e2, e3, e4, -, -, -, e8⟩ := C117_table order threads budget ho ht hb s hs nbrs hn val
  rw [ha] at e1
  obtain rfl := Option.some.inj e1
  have hWW : ∀ i, i < s'.num → W1 i = W i := fun i hi => Option.some.inj ((e4 i hi).symm.trans (hW i hi))
  have hcdf : ∀ i, i < s'.num → s'.cdf i = some (∑ j ∈ Finset.range (i + 1), W j) := fun i hi => by
    rw [e8 i hi]
    congr 1
    exact Finset.sum_congr rfl fun j hj => hWW j (by have := Finset.mem_range.1 hj; omega)
  have hn0 : 0 < s'.num := by omega
  have hlast : (s'.cdf (s'.num - 1)).getD 0 = ∑ j ∈ Finset.range s'.num, W j := by
    rw [hcdf _ (by omega), show s'.num - 1 + 1 = s'.num by omega]
    rfl
  obtain ⟨i, g1, g2, g3, g4⟩ := C35_discrete_cdf (fun i => (s'.cdf i).getD 0) s'.num hn0 (fun a b hab hbn => by
    simp only [hcdf a (by omega), hcdf b hbn, Option.getD_some]
    exact Finset.sum_le_sum_of_subset_of_nonneg (Finset.range_mono (by omega)) fun j hj _ => h0 j (by have := Finset.mem_range.1 hj; omega)) (by rw [hlast]; exact hpos) v hv s'.num le_rfl
  rw [hlast] at g3 g4
  have g3' : ∑ j ∈ Finset.range i, W j ≤ v * ∑ j ∈ Finset.range s'.num, W j := by
    refine le_of_eq_of_le ?_ g3
    by_cases hi : i > 0
    · rw [if_pos hi, hcdf _ (by omega), show i - 1 + 1 = i by omega]
      rfl
    · rw [if_neg hi, show i = 0 by omega]
      simp
  have g4' : v * ∑ j ∈ Finset.range s'.num, W j ≤ ∑ j ∈ Finset.range (i + 1), W j := by
    rw [hcdf i g2] at g4
    exact g4
  have hr : cdfReadable s' := fun j hj => by rw [hcdf j hj]; rfl
  unfold suggestSample
  rw [if_neg (by omega), if_pos hr, g1]
  cases val' with
  | none => exact ⟨i, _, rfl, g2, g3', g4'⟩
  | some w => exact ⟨i, _, rfl, g2, g3', g4'⟩

/-- **C117, finding.** Choosing another function to sample by is undefined behaviour as soon as there is a seed: the table is filled from the weight at `_num_seeds`, which is never set. -/
theorem C117_set_sampling_undefined (order threads budget : Nat) (ho : 0 < order) (ht : 0 < threads) (hb : 0 < budget) (s : AdaptState) (hs : AdaptReach order threads budget s) (h1 : 0 < s.num)
    (val : Nat → ℝ) : setSampling val s s.num = none := by
  have ok := hs.ok ho ht hb
  have key : ∀ k, 0 < k → k ≤ s.num → setSampling val s k = none := by
    intro k hk
    induction k with
    | zero => omega
    | succ k ih =>
      intro hk'
      by_cases h0 : k = 0
      · subst h0
        have hr := ok.room
        simp only [setSampling, integrateCell, if_pos (by omega : 0 < s.budget), if_pos hr]
        rw [Function.update_of_ne (by omega), ok.unknown s.num le_rfl]
      · simp only [setSampling, ih (by omega) (by omega)]
  exact key s.num h1 le_rfl

theorem addCellSeed_first (order threads budget : Nat) (hb : 2 ≤ budget) (val : Nat → ℝ) :
    addCellSeed order threads [] val (adaptInit budget) = some ⟨1, budget, Function.update (fun _ => none) 0 (some (val 0)), Function.update (fun _ => none) 0 (some (val 0))⟩ := by
  have h1 : (adaptInit budget).num < (adaptInit budget).budget := by simp only [adaptInit]; omega
  have h2 : 0 + 1 ≠ budget := by omega
  unfold addCellSeed
  rw [if_pos h1, if_pos (Or.inl rfl : (adaptInit budget).num = 0 ∨ order = 0)]
  simp only [integrateCell, if_pos h1]
  simp [adaptInit, adaptGrow, h2]

/-- **C117, finding.** With order zero the table is not a sum: with two seeds, the second of positive weight but not heavier than the first, every random number selects the first cell. -/
theorem C117_order_zero_false (threads budget : Nat) (hb : 2 ≤ budget) (val : Nat → ℝ) (h1 : 0 < val 1) (h2 : val 1 ≤ val 0) :
    ∃ s s', addCellSeed 0 threads [] val (adaptInit budget) = some s ∧ addCellSeed 0 threads [] val s = some s' ∧ s'.num = 2 ∧ s'.weight 0 = some (val 0) ∧ s'.weight 1 = some (val 1) ∧
      ∀ v, 0 ≤ v → v < 1 → suggestSample v none s' = some (some 0, s') := by
  let s : AdaptState := ⟨1, budget, Function.update (fun _ => none) 0 (some (val 0)), Function.update (fun _ => none) 0 (some (val 0))⟩
  let t : AdaptState := ⟨2, budget, Function.update s.weight 1 (some (val 1)), Function.update s.cdf 1 (some (val 1))⟩
  have e1 : addCellSeed 0 threads [] val (adaptInit budget) = some s := addCellSeed_first _ _ _ hb _
  have e2 : addCellSeed 0 threads [] val s = some (adaptGrow t) := by
    simp only [addCellSeed, integrateCell, s, if_pos (by omega : 1 < budget), or_true, if_true, Function.update_self]
    rfl
  obtain ⟨g1, g2, g3⟩ := adaptGrow_same t
  have c0 : t.cdf 0 = some (val 0) := by simp [t, s]
  have c1 : t.cdf 1 = some (val 1) := by simp [t, s]
  refine ⟨s, adaptGrow t, e1, e2, g1, by rw [g2]; simp [t, s], by rw [g2]; simp [t, s], fun v hv0 hv1 => ?_⟩
  have hr : cdfReadable (adaptGrow t) := by
    intro i hi
    rw [g1] at hi
    rw [g3]
    have : i < 2 := hi
    interval_cases i
    · rw [c0]; rfl
    · rw [c1]; rfl
  have hd : discreteCdf (fun i => ((adaptGrow t).cdf i).getD 0) (adaptGrow t).num v (adaptGrow t).num = some 0 := by
    rw [g1, g3]
    have en : t.num = 2 := rfl
    rw [en]
    simp only [discreteCdf, cdfSearch, c0, c1, Option.getD_some]
    rw [if_neg (by omega), if_neg h1.ne']
    have k1 : 0 ≤ v * val 1 := by positivity
    have k2 : v * val 1 ≤ val 0 := by nlinarith
    simp [k1, k2]
  unfold suggestSample
  rw [if_neg (by rw [g1]; simp [t]), if_pos hr, hd]

/-- **C117, finding.** A suggestion with a new integration changes the weight of the cell but not the table, so that the next suggestion is drawn by the weights as they were. -/
theorem C117_stale_table_false (order threads budget : Nat) (hb : 2 ≤ budget) :
    ∃ (val : Nat → ℝ) (s t : AdaptState), addCellSeed order threads [] val (adaptInit budget) = some s ∧ suggestSample 0 (some 5) s = some (some 0, t) ∧ t.weight 0 = some 5 ∧ t.cdf 0 = some 1 := by
  let s : AdaptState := ⟨1, budget, Function.update (fun _ => none) 0 (some 1), Function.update (fun _ => none) 0 (some 1)⟩
  have e1 : addCellSeed order threads [] (fun _ => 1) (adaptInit budget) = some s := addCellSeed_first _ _ _ hb _
  have c0 : s.cdf 0 = some 1 := by simp [s]
  have hr : cdfReadable s := by
    intro i hi
    have : i < 1 := hi
    interval_cases i
    rw [c0]; rfl
  have hd : discreteCdf (fun i => (s.cdf i).getD 0) s.num 0 s.num = some 0 := by
    have en : s.num = 1 := rfl
    rw [en]
    simp only [discreteCdf, cdfSearch, c0, Option.getD_some]
    norm_num
  refine ⟨fun _ => 1, s, { s with weight := Function.update s.weight 0 (some 5) }, e1, ?_, ?_, c0⟩
  · unfold suggestSample
    rw [if_neg (by simp [s]), if_pos hr, hd]
  · simp

/-- **C117, finding.** Samples added with `add_samples` have no weights: asking for a suggestion is then undefined, and so is adding one more seed if there are as many samples as the arrays have entries, or
adding more samples than that. -/
theorem C117_add_samples_undefined (order threads budget n : Nat) (hn : 0 < n) :
    (n ≤ budget → ∃ s, addSamples n (adaptInit budget) = some s ∧ (∀ v val, suggestSample v val s = none) ∧ (n = budget → ∀ nbrs val, addCellSeed order threads nbrs val s = none)) ∧
    (budget < n → addSamples n (adaptInit budget) = none) := by
  constructor
  · intro h
    refine ⟨{ adaptInit budget with num := n }, by unfold addSamples; exact if_pos h, fun v val => ?_, fun e nbrs val => ?_⟩
    · have : ¬ cdfReadable { adaptInit budget with num := n } := by
        intro hr
        have := hr 0 hn
        simp [adaptInit] at this
      unfold suggestSample
      rw [if_neg (by simp only; omega), if_neg this]
    · unfold addCellSeed
      rw [if_neg (by simp only [adaptInit]; omega)]
  · intro h
    unfold addSamples
    rw [if_neg (by simp only [adaptInit]; omega)]

/-- A case: three seeds with two threads and room for two; the last one has both others as neighbours. -/
example : ∃ s1 s2 s3, addCellSeed 1 2 [] (fun _ => 1) (adaptInit 2) = some s1 ∧ addCellSeed 1 2 [0] (fun _ => 2) s1 = some s2 ∧ addCellSeed 1 2 [0, 1] (fun i => (i + 1 : ℝ)) s2 = some s3 ∧
    s3.num = 3 ∧ s3.cdf 2 = some 6 := by
  have r0 : AdaptReach 1 2 2 (adaptInit 2) := .init
  obtain ⟨s1, W1, a1, b1, -⟩ := C117_table 1 2 2 (by norm_num) (by norm_num) (by norm_num) _ r0 [] (by simp) fun _ => 1
  have r1 := r0.add [] _ (by simp) a1
  have n1 : s1.num = 1 := b1
  obtain ⟨s2, W2, a2, b2, -⟩ := C117_table 1 2 2 (by norm_num) (by norm_num) (by norm_num) _ r1 [0] (by simp [n1]) fun _ => 2
  have r2 := r1.add [0] _ (by simp [n1]) a2
  have n2 : s2.num = 2 := by omega
  obtain ⟨s3, W, a3, b3, -, -, c1, c2, -, c4⟩ := C117_table 1 2 2 (by norm_num) (by norm_num) (by norm_num) _ r2 [0, 1] (by simp [n2]) fun i => (i + 1 : ℝ)
  refine ⟨s1, s2, s3, a1, a2, a3, by omega, ?_⟩
  rw [c4 2 (by omega)]
  rw [n2] at c2
  have d0 := c1 0 (by simp)
  have d1 := c1 1 (by simp)
  simp only [Finset.sum_range_succ, Finset.sum_range_zero, d0, d1, c2]
  norm_num

end VoroCrust
