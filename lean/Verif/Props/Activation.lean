import Verif.Model.Front
import Verif.Props.MesherLip

/-!
# C49: active front seeds
-/

namespace VoroCrust

theorem distSq3_eq (x y : Nat → ℝ) : distSq3 x y = euclidSq 3 x y := by
  unfold distSq3 euclidSq
  simp only [Finset.sum_range_succ, Finset.sum_range_zero]
  ring

theorem sqrt_distSq3 (x y : Nat → ℝ) : Real.sqrt (distSq3 x y) = euclid 3 x y := by rw [distSq3_eq]; rfl

theorem distSq3_sq (x y : Nat → ℝ) : distSq3 x y = euclid 3 x y ^ 2 := by rw [distSq3_eq]; unfold euclidSq; rw [← euclid_sq]

/-- The exclusion distance of two front seeds. -/
noncomputable def ActiveApart (L : ℝ) (a b : SeedRec) : Prop := (3 + 2 * L) * (a.size + b.size) - 1e-10 ≤ euclid 3 a.x b.x

theorem frontConflict_iff {L : ℝ} {a b : SeedRec} : frontConflict L a b = true ↔ ¬ ActiveApart L a b := by
  unfold frontConflict ActiveApart
  rw [sqrt_distSq3, decide_eq_true_iff, not_le]

/-- Invariant of the activation loop before front seed `i`. -/
structure ActInv (L : ℝ) (fs : Nat → SeedRec) (i : Nat) (act : Nat → Bool) (good : Nat) : Prop where
  below : ∀ k, act k = true → k < i
  apart : ∀ a b, act a = true → act b = true → b + 1 < a → ActiveApart L (fs a) (fs b)
  why : ∀ k, k < i → act k = false → ∃ j, j + 1 < k ∧ act j = true ∧ ¬ ActiveApart L (fs k) (fs j)
  count : good = (List.range i).countP act

/-- What the loop computes. -/
structure ActSpec (L : ℝ) (cap n : Nat) (fs : Nat → SeedRec) (act : Nat → Bool) : Prop where
  below : ∀ k, act k = true → k < n
  apart : ∀ a b, act a = true → act b = true → b + 1 < a → ActiveApart L (fs a) (fs b)
  why : ∀ k, k < n → act k = false → (∃ j, j + 1 < k ∧ act j = true ∧ ¬ ActiveApart L (fs k) (fs j)) ∨ (List.range n).countP act = cap
  count : 2 ≤ cap → (List.range n).countP act ≤ cap
  keep : ∀ k, act k = true → k < n

theorem countP_below {n i : Nat} {act : Nat → Bool} (h : ∀ k, act k = true → k < i) (hn : i ≤ n) : (List.range n).countP act = (List.range i).countP act := by
  induction n with
  | zero => rw [show i = 0 by omega]
  | succ n ih =>
    by_cases hi : i = n + 1
    · rw [hi]
    · rw [List.range_succ, List.countP_append, ih (by omega)]
      have : act n = false := by
        by_contra hc
        have := h n (by simpa using hc)
        omega
      simp [this]

theorem activateFrom_spec {L : ℝ} {cap : Nat} {fs : Nat → SeedRec} (k i : Nat) (hi : 1 ≤ i) {act : Nat → Bool} {good : Nat} (h : ActInv L fs i act good) (hg : 2 ≤ cap → good < cap) :
    ActSpec L cap (i + k) fs (activateFrom L cap fs k i act good) ∧ (∀ j, act j = true → activateFrom L cap fs k i act good j = true) := by
  induction k generalizing i act good with
  | zero =>
    refine ⟨⟨h.below, h.apart, fun k hk ha => Or.inl (h.why k hk ha), fun h2 => ?_, h.below⟩, fun j hj => hj⟩
    have := h.count
    have := hg h2
    simp only [Nat.add_zero, activateFrom]
    omega
  | succ k ih =>
    unfold activateFrom
    have hiact : act i = false := by
      by_contra hc
      have := h.below i (by simpa using hc)
      omega
    by_cases hc : (List.range (i - 1)).any (fun j => act j && frontConflict L (fs i) (fs j)) = true
    · rw [if_pos hc]
      rw [List.any_eq_true] at hc
      obtain ⟨j, hj, hj2⟩ := hc
      rw [List.mem_range] at hj
      rw [Bool.and_eq_true, frontConflict_iff] at hj2
      have hinv : ActInv L fs (i + 1) act good := by
        refine ⟨fun k hk => by have := h.below k hk; omega, h.apart, fun k hk ha => ?_, ?_⟩
        · by_cases hki : k = i
          · subst hki; exact ⟨j, by omega, hj2⟩
          · exact h.why k (by omega) ha
        · rw [List.range_succ, List.countP_append, ← h.count]
          simp [hiact]
      have := ih (i + 1) (by omega) hinv hg
      rwa [show i + 1 + k = i + (k + 1) by omega] at this
    · rw [if_neg hc]
      have hfree : ∀ j, j + 1 < i → act j = true → ActiveApart L (fs i) (fs j) := by
        intro j hj ha
        by_contra hn
        apply hc
        rw [List.any_eq_true]
        exact ⟨j, List.mem_range.2 (by omega), by rw [Bool.and_eq_true, frontConflict_iff]; exact ⟨ha, hn⟩⟩
      have hcnt : (List.range (i + 1)).countP (upd act i true) = good + 1 := by
        rw [List.range_succ, List.countP_append, h.count]
        have : (List.range i).countP (upd act i true) = (List.range i).countP act :=
          List.countP_congr fun m hm => by rw [List.mem_range] at hm; simp [upd, show m ≠ i by omega]
        rw [this]
        simp [upd]
      have hinv : ActInv L fs (i + 1) (upd act i true) (good + 1) := by
        refine ⟨fun k hk => ?_, fun a b ha hb hab => ?_, fun k hk ha => ?_, hcnt.symm⟩
        · by_cases hki : k = i
          · omega
          · simp only [upd, if_neg hki] at hk
            have := h.below k hk
            omega
        · by_cases hbi : b = i
          · subst hbi
            by_cases hai : a = b
            · omega
            · simp only [upd, if_neg hai] at ha
              have := h.below a ha
              omega
          · simp only [upd, if_neg hbi] at hb
            by_cases hai : a = i
            · subst hai; exact hfree b hab hb
            · simp only [upd, if_neg hai] at ha
              exact h.apart a b ha hb hab
        · by_cases hki : k = i
          · subst hki; simp [upd] at ha
          · simp only [upd, if_neg hki] at ha
            obtain ⟨j, h1, h2, h3⟩ := h.why k (by omega) ha
            exact ⟨j, h1, by simp only [upd]; split_ifs <;> simp [h2], h3⟩
      have hmono : ∀ j, act j = true → upd act i true j = true := fun j hj => by simp only [upd]; split_ifs <;> simp [hj]
      by_cases hcap : good + 1 = cap
      · rw [if_pos hcap]
        have hb : ∀ k, upd act i true k = true → k < i + 1 := hinv.below
        have hn : (List.range (i + (k + 1))).countP (upd act i true) = cap := by rw [countP_below hb (by omega), hcnt, hcap]
        exact ⟨⟨fun k hk => by have := hb k hk; omega, hinv.apart, fun _ _ _ => Or.inr hn, fun _ => hn.le, fun k hk => by have := hb k hk; omega⟩, hmono⟩
      · rw [if_neg hcap]
        obtain ⟨h1, h2⟩ := ih (i + 1) (by omega) hinv (fun h2 => by have := hg h2; omega)
        rw [show i + 1 + k = i + (k + 1) by omega] at h1
        exact ⟨h1, fun j hj => h2 j (hmono j hj)⟩

theorem activate_spec {L : ℝ} {cap n : Nat} {fs : Nat → SeedRec} (hn : 0 < n) : ∃ act, activate L cap n fs = some act ∧ ActSpec L cap n fs act ∧ act 0 = true := by
  have h0 : ActInv L fs 1 (upd (fun _ => false) 0 true) 1 := by
    have hb : ∀ k, upd (fun _ => false) 0 true k = true → k = 0 := fun k hk => by
      by_contra hk0; simp [upd, hk0] at hk
    refine ⟨fun k hk => by have := hb k hk; omega, fun a b ha hb' hab => ?_, fun k hk ha => ?_, by simp [upd]⟩
    · have := hb a ha; omega
    · rw [show k = 0 by omega] at ha; simp [upd] at ha
  obtain ⟨h1, h2⟩ := activateFrom_spec (L := L) (cap := cap) (fs := fs) (n - 1) 1 (le_refl 1) h0 (fun h => by omega)
  rw [show 1 + (n - 1) = n by omega] at h1
  exact ⟨_, by unfold activate; rw [if_neg (by omega)], h1, h2 0 (by simp [upd])⟩

/-- **C49, what holds.** For every nonempty front: two active seeds that are not neighbours in the front are at least the exclusion distance `(3 + 2L)(r + r')` apart (up to `1e-10`), so any
points within twice their radii are at least `(1 + 2L)(r + r')` apart; a seed is inactive only because of an active seed earlier in the front or because the maximal number of active
seeds is reached, and that number is not exceeded.  Missing: neighbours in the front (see `C49_neighbours_active_false`). -/
theorem C49_active_front_partial (L : ℝ) (threads n : Nat) (fs : Nat → SeedRec) (hn : 0 < n) (ht : 0 < threads) :
    ∃ act, activate L (100 * threads) n fs = some act ∧ act 0 = true ∧ (∀ k, act k = true → k < n) ∧
      (∀ i j, act i = true → act j = true → j + 1 < i →
        (3 + 2 * L) * ((fs i).size + (fs j).size) - 1e-10 ≤ euclid 3 (fs i).x (fs j).x ∧
          ∀ p q, euclid 3 p (fs i).x ≤ 2 * (fs i).size → euclid 3 q (fs j).x ≤ 2 * (fs j).size → (1 + 2 * L) * ((fs i).size + (fs j).size) - 1e-10 ≤ euclid 3 p q) ∧
      (∀ k, k < n → act k = false → (∃ j, j < k ∧ act j = true ∧ euclid 3 (fs k).x (fs j).x < (3 + 2 * L) * ((fs k).size + (fs j).size) - 1e-10) ∨ (List.range n).countP act = 100 * threads) ∧
      (List.range n).countP act ≤ 100 * threads := by
  obtain ⟨act, e, h, h0⟩ := activate_spec (L := L) (cap := 100 * threads) (fs := fs) hn
  refine ⟨act, e, h0, h.below, fun i j hi hj hij => ⟨h.apart i j hi hj hij, fun p q hp hq => ?_⟩, fun k hk ha => ?_, h.count (by omega)⟩
  · have h1 := h.apart i j hi hj hij
    unfold ActiveApart at h1
    have h2 := euclid_triangle 3 (fs i).x p (fs j).x
    have h3 := euclid_triangle 3 p q (fs j).x
    rw [euclid_comm 3 (fs i).x p] at h2
    linarith
  · rcases h.why k hk ha with ⟨j, h1, h2, h3⟩ | h1
    · exact Or.inl ⟨j, by omega, h2, not_le.1 h3⟩
    · exact Or.inr h1

/-- **C49 fails.** The inner loop stops before the preceding seed (`j < i - 1`): in every front of at least two seeds the first two are both active, whatever their distance. -/
theorem C49_neighbours_active_false (L : ℝ) (threads n : Nat) (fs : Nat → SeedRec) (hn : 2 ≤ n) (ht : 0 < threads) : ∃ act, activate L (100 * threads) n fs = some act ∧ act 0 = true ∧ act 1 = true := by
  obtain ⟨act, e, h, h0⟩ := activate_spec (L := L) (cap := 100 * threads) (fs := fs) (show 0 < n by omega)
  refine ⟨act, e, h0, ?_⟩
  by_contra h1
  have h1' : act 1 = false := by simpa using h1
  rcases h.why 1 (by omega) h1' with ⟨j, hj, -⟩ | hc
  · omega
  · -- the limit is not reached before the second seed is looked at
    unfold activate at e
    rw [if_neg (by omega)] at e
    obtain rfl := Option.some.inj e
    obtain ⟨m, rfl⟩ : ∃ m, n = m + 2 := ⟨n - 2, by omega⟩
    rw [show m + 2 - 1 = m + 1 by omega] at h1'
    unfold activateFrom at h1'
    rw [if_neg (by simp), if_neg (by omega)] at h1'
    have hinv : ActInv L fs 2 (upd (upd (fun _ => false) 0 true) 1 true) 2 := by
      have hb : ∀ k, upd (upd (fun _ => false) 0 true) 1 true k = true → k < 2 := fun k hk => by
        by_contra hk0
        simp [upd, show k ≠ 0 by omega, show k ≠ 1 by omega] at hk
      refine ⟨hb, fun a b ha hb' hab => ?_, fun k hk ha => ?_, by simp [upd, List.range_succ]⟩
      · have := hb a ha; omega
      · interval_cases k <;> simp [upd] at ha
    have := (activateFrom_spec (L := L) (cap := 100 * threads) m 2 (by omega) hinv (fun _ => by omega)).2 1 (by simp [upd])
    rw [this] at h1'
    simp at h1'

/-- **C49, finding.** Without a seed inside (an empty front) the flag of the first front seed is written outside the array. -/
theorem C49_empty_front_undefined (L : ℝ) (cap : Nat) (fs : Nat → SeedRec) : activate L cap 0 fs = none := by simp [activate]

-- non-vacuity: three coincident seeds of size 1; the third is inactive because of the first
example : ∃ act, activate 0 100 3 (fun _ => ⟨fun _ => 0, 1, 1⟩) = some act ∧ act 0 = true ∧ act 1 = true ∧ act 2 = false := by
  obtain ⟨act, e, h0, h1⟩ := C49_neighbours_active_false 0 1 3 (fun _ => ⟨fun _ => 0, 1, 1⟩) (by omega) (by omega)
  obtain ⟨act', e', -, -, h3, -⟩ := C49_active_front_partial 0 1 3 (fun _ => ⟨fun _ => 0, 1, 1⟩) (by omega) (by omega)
  obtain rfl := Option.some.inj (e.symm.trans e')
  refine ⟨act, e, h0, h1, ?_⟩
  by_contra h2
  have := (h3 2 0 (by simpa using h2) h0 (by omega)).1
  simp only [euclid_self] at this
  norm_num at this

end VoroCrust
