import Verif.Model.Memory
import Mathlib.Logic.Equiv.Basic
import Mathlib.Algebra.Group.End
import Mathlib.Data.List.Perm.Basic
import Mathlib.Data.List.Basic
import Mathlib.Data.List.Nodup

namespace VoroCrust

/-! ## Growable arrays -/

/-- Well-formed bookkeeping: allocation size is `cap`, there is room for one more
entry, and the first `num` cells hold `xs`. -/
structure Buf.Holds {α : Type} (b : Buf α) (xs : List α) : Prop where
  alloc : b.cells.length = b.cap
  room : b.num < b.cap
  len : b.num = xs.length
  content : b.cells.take b.num = xs.map some

theorem addEntry_holds {α : Type} {b : Buf α} {xs : List α} (h : b.Holds xs) (e : α) :
    ∃ b', addEntry e b = some b' ∧ b'.Holds (xs ++ [e]) ∧ b'.cap = (if b.num + 1 = b.cap then b.cap * 2 else b.cap) := by
  obtain ⟨h1, h2, h3, h4⟩ := h
  have hlt : b.num < b.cells.length := by omega
  have htake : (b.cells.set b.num (some e)).take (b.num + 1) = (xs ++ [e]).map some := by
    rw [List.take_add_one]
    rw [List.take_set_of_le (by omega), h4]
    simp [hlt]
  unfold addEntry
  rw [if_pos hlt]
  by_cases hc : b.num + 1 = b.cap
  · have : b.num + 1 ≤ (b.cells.set b.num (some e)).length ∧ b.num + 1 ≤ b.cap * 2 := by
      constructor
      · simp; omega
      · omega
    simp only [hc, if_true]
    rw [hc] at this
    rw [if_pos this]
    refine ⟨_, rfl, ⟨?_, ?_, ?_, ?_⟩, rfl⟩
    · simp; omega
    · show b.cap < b.cap * 2; omega
    · simp; omega
    · show List.take b.cap (List.take b.cap _ ++ _) = _
      rw [← hc, List.take_append_of_le_length (by simp; omega), List.take_take]
      simpa using htake
  · simp only [hc, if_false]
    refine ⟨_, rfl, ⟨?_, ?_, ?_, ?_⟩, rfl⟩
    · simpa using h1
    · show b.num + 1 < b.cap; omega
    · simp; omega
    · simpa using htake

theorem addEntries_holds {α : Type} (es : List α) {b : Buf α} {xs : List α} (h : b.Holds xs) :
    ∃ b', addEntries es b = some b' ∧ b'.Holds (xs ++ es) := by
  induction es generalizing b xs with
  | nil => exact ⟨b, rfl, by simpa using h⟩
  | cons e es ih =>
    obtain ⟨b1, e1, h1, _⟩ := addEntry_holds h e
    obtain ⟨b2, e2, h2⟩ := ih h1
    refine ⟨b2, ?_, by simpa using h2⟩
    simp [addEntries, e1, e2]

/-! ## Swap logs -/

theorem swapAt_eq {α : Type} (x : Nat → α) (i j : Nat) : swapAt x i j = x ∘ Equiv.swap i j := by
  funext k
  simp only [swapAt, Function.comp]
  by_cases h1 : k = j
  · subst h1; simp
  · by_cases h2 : k = i
    · subst h2; simp [h1]
    · simp [h1, h2, Equiv.swap_apply_of_ne_of_ne h2 h1]

/-- Replays a log of swaps on an array. -/
def runSwaps {α : Type} (x : Nat → α) (L : List (Nat × Nat)) : Nat → α :=
  L.foldl (fun x p => swapAt x p.1 p.2) x

/-- The permutation of positions realised by a log of swaps. -/
def permOf : List (Nat × Nat) → Equiv.Perm Nat
  | [] => 1
  | p :: L => Equiv.swap p.1 p.2 * permOf L

theorem runSwaps_eq {α : Type} (L : List (Nat × Nat)) (x : Nat → α) : runSwaps x L = x ∘ permOf L := by
  induction L generalizing x with
  | nil => rfl
  | cons p L ih =>
    show runSwaps (swapAt x p.1 p.2) L = _
    rw [ih, swapAt_eq]
    funext k
    simp [permOf]

/-- All swaps of the log are between positions of `[a, b]`. -/
def SwapsIn (a b : Nat) (L : List (Nat × Nat)) : Prop :=
  ∀ p ∈ L, a ≤ p.1 ∧ p.1 ≤ b ∧ a ≤ p.2 ∧ p.2 ≤ b

theorem permOf_fix {a b : Nat} {L : List (Nat × Nat)} (h : SwapsIn a b L) {k : Nat}
    (hk : k < a ∨ b < k) : permOf L k = k := by
  induction L with
  | nil => rfl
  | cons p L ih =>
    have hp := h p (by simp)
    simp only [permOf, Equiv.Perm.mul_apply]
    rw [ih (fun q hq => h q (by simp [hq]))]
    apply Equiv.swap_apply_of_ne_of_ne <;> omega

theorem permOf_mem {a b : Nat} {L : List (Nat × Nat)} (h : SwapsIn a b L) {k : Nat}
    (hk : a ≤ k ∧ k ≤ b) : a ≤ permOf L k ∧ permOf L k ≤ b := by
  induction L with
  | nil => exact hk
  | cons p L ih =>
    have hp := h p (by simp)
    have := ih (fun q hq => h q (by simp [hq]))
    simp only [permOf, Equiv.Perm.mul_apply]
    by_cases h1 : permOf L k = p.1
    · rw [h1, Equiv.swap_apply_left]; omega
    · by_cases h2 : permOf L k = p.2
      · rw [h2, Equiv.swap_apply_right]; omega
      · rw [Equiv.swap_apply_of_ne_of_ne h1 h2]; exact this

theorem SwapsIn.mono {a b a' b' : Nat} {L : List (Nat × Nat)} (h : SwapsIn a b L) (h1 : a' ≤ a)
    (h2 : b ≤ b') : SwapsIn a' b' L := fun p hp => by have := h p hp; omega

theorem SwapsIn.append {a b : Nat} {L M : List (Nat × Nat)} (h : SwapsIn a b L) (h' : SwapsIn a b M) :
    SwapsIn a b (L ++ M) := fun p hp => by
  rcases List.mem_append.1 hp with hp | hp
  · exact h p hp
  · exact h' p hp

theorem runSwaps_append {α : Type} (x : Nat → α) (L M : List (Nat × Nat)) :
    runSwaps x (L ++ M) = runSwaps (runSwaps x L) M := by
  simp [runSwaps, List.foldl_append]

/-! ## Scans -/

section
variable {κ C : Type} {lt : κ → κ → Bool} {n : Nat} {x : Nat → κ} {p : κ}

theorem scanUp_spec {i k : Nat} (hik : i ≤ k) (hk : k < n) (hs : lt (x k) p = false) :
    ∃ i', scanUp lt n x p i = some i' ∧ i ≤ i' ∧ i' ≤ k ∧ lt (x i') p = false ∧
      ∀ m, i ≤ m → m < i' → lt (x m) p = true := by
  induction hd : k - i generalizing i with
  | zero =>
    have : i = k := by omega
    subst this
    refine ⟨i, ?_, le_refl _, le_refl _, hs, fun m h1 h2 => by omega⟩
    rw [scanUp]; simp [hk, hs]
  | succ d ih =>
    by_cases hb : lt (x i) p = true
    · obtain ⟨i', e, h1, h2, h3, h4⟩ := ih (i := i + 1) (by omega) (by omega)
      refine ⟨i', ?_, by omega, h2, h3, ?_⟩
      · rw [scanUp]; simp [show i < n by omega, hb, e]
      · intro m hm hm'
        by_cases hmi : m = i
        · subst hmi; exact hb
        · exact h4 m (by omega) hm'
    · refine ⟨i, ?_, le_refl _, hik, by simpa using hb, fun m h1 h2 => by omega⟩
      rw [scanUp]; simp [show i < n by omega, hb]

theorem scanDown_spec {j k : Nat} (hkj : k ≤ j) (hj : j < n) (hs : lt p (x k) = false) :
    ∃ j', scanDown lt n x p j = some j' ∧ j' ≤ j ∧ k ≤ j' ∧ lt p (x j') = false ∧
      ∀ m, j' < m → m ≤ j → lt p (x m) = true := by
  induction j with
  | zero =>
    have : k = 0 := by omega
    subst this
    exact ⟨0, by simp [scanDown, hj, hs], le_refl _, le_refl _, hs, fun m h1 h2 => by omega⟩
  | succ j ih =>
    by_cases hb : lt p (x (j + 1)) = true
    · have hkj' : k ≤ j := by
        rcases Nat.lt_or_ge k (j + 1) with h | h
        · omega
        · have : k = j + 1 := by omega
          subst this; simp [hs] at hb
      obtain ⟨j', e, h1, h2, h3, h4⟩ := ih hkj' (by omega)
      refine ⟨j', by simp [scanDown, hj, hb, e], by omega, h2, h3, ?_⟩
      intro m hm hm'
      by_cases hmi : m = j + 1
      · subst hmi; exact hb
      · exact h4 m hm (by omega)
    · exact ⟨j + 1, by simp [scanDown, hj, hb], le_refl _, hkj, by simpa using hb, fun m h1 h2 => by omega⟩

/-! ## Partition -/

/-- Invariant of the partition loop on `[left, right]`. -/
structure PInv (lt : κ → κ → Bool) (p : κ) (left right : Nat) (s : PartState κ C) : Prop where
  hi : left ≤ s.i
  hi' : s.i ≤ right + 1
  hj : s.j ≤ right
  lo : ∀ k, left ≤ k → k < s.i → lt p (s.x k) = false
  hi2 : ∀ k, s.j < k → k ≤ right → lt (s.x k) p = false
  up : s.i ≤ s.j → ∃ k, s.i ≤ k ∧ k ≤ right ∧ lt (s.x k) p = false
  dn : s.i ≤ s.j → ∃ k, left ≤ k ∧ k ≤ s.j ∧ lt p (s.x k) = false

theorem swapAt_left {α : Type} (x : Nat → α) (i j : Nat) : swapAt x i j i = x j := by
  unfold swapAt; split <;> simp_all
theorem swapAt_right {α : Type} (x : Nat → α) (i j : Nat) : swapAt x i j j = x i := by
  simp [swapAt]
theorem swapAt_other {α : Type} (x : Nat → α) (i j k : Nat) (h1 : k ≠ i) (h2 : k ≠ j) :
    swapAt x i j k = x k := by simp [swapAt, h1, h2]

/-- One effective iteration of the partition loop. -/
theorem partition_step {sw : Nat → Nat → C → C} {left right : Nat} (hasym : ∀ a b, lt a b = true → lt b a = false)
    {s : PartState κ C} (hr : right < n) (h : PInv lt p left right s) (hij : s.i ≤ s.j) :
    ∃ i j, scanUp lt n s.x p s.i = some i ∧ scanDown lt n s.x p s.j = some j ∧
      s.i ≤ i ∧ i ≤ right ∧ j ≤ s.j ∧ left ≤ j ∧
      (∀ k, s.i ≤ k → k ≤ right → lt (s.x k) p = false → i ≤ k) ∧
      (∀ k, left ≤ k → k ≤ s.j → lt p (s.x k) = false → k ≤ j) ∧
      (i ≤ j → PInv lt p left right
        ({ x := swapAt s.x i j, c := sw i j s.c, i := i + 1, j := if j > 0 then j - 1 else j } : PartState κ C)) ∧
      (¬ i ≤ j → PInv lt p left right { s with i := i, j := j }) := by
  obtain ⟨k1, a1, a2, a3⟩ := h.up hij
  obtain ⟨k2, b1, b2, b3⟩ := h.dn hij
  obtain ⟨i, ei, i1, i2, i3, i4⟩ := scanUp_spec (lt := lt) (p := p) (x := s.x) a1 (by omega : k1 < n) a3
  have hjr := h.hj
  have hil := h.hi
  obtain ⟨j, ej, j1, j2, j3, j4⟩ := scanDown_spec (lt := lt) (p := p) (x := s.x) b2 (by omega : s.j < n) b3
  refine ⟨i, j, ei, ej, i1, by omega, j1, by omega, ?_, ?_, ?_, ?_⟩
  · intro k hk1 hk2 hk3
    by_contra hc
    have := i4 k hk1 (by omega)
    simp [hk3] at this
  · intro k hk1 hk2 hk3
    by_contra hc
    have := j4 k (by omega) hk2
    simp [hk3] at this
  · intro hle
    refine ⟨?_, ?_, ?_, ?_, ?_, ?_, ?_⟩
    · show left ≤ i + 1; omega
    · show i + 1 ≤ right + 1; omega
    · show (if j > 0 then j - 1 else j) ≤ right; split <;> omega
    · intro k hk1 hk2
      have hk2 : k < i + 1 := hk2
      show lt p (swapAt s.x i j k) = false
      by_cases hki : k = i
      · subst hki; rw [swapAt_left]; exact j3
      · rw [swapAt_other _ _ _ _ hki (by omega)]
        by_cases hks : k < s.i
        · exact h.lo k hk1 hks
        · exact hasym _ _ (i4 k (by omega) (by omega))
    · intro k hk1 hk2
      have hk1 : (if j > 0 then j - 1 else j) < k := hk1
      have hjk : j ≤ k := by split at hk1 <;> omega
      show lt (swapAt s.x i j k) p = false
      by_cases hkj : k = j
      · subst hkj; rw [swapAt_right]; exact i3
      · rw [swapAt_other _ _ _ _ (by omega) hkj]
        by_cases hks : s.j < k
        · exact h.hi2 k hks hk2
        · exact hasym _ _ (j4 k (by omega) (by omega))
    · intro hc
      have hc : i + 1 ≤ (if j > 0 then j - 1 else j) := hc
      refine ⟨j, ?_, by omega, ?_⟩
      · show i + 1 ≤ j; split at hc <;> omega
      · show lt (swapAt s.x i j j) p = false
        rw [swapAt_right]; exact i3
    · intro hc
      have hc : i + 1 ≤ (if j > 0 then j - 1 else j) := hc
      refine ⟨i, by omega, ?_, ?_⟩
      · show i ≤ (if j > 0 then j - 1 else j); omega
      · show lt p (swapAt s.x i j i) = false
        rw [swapAt_left]; exact j3
  · intro hle
    refine ⟨?_, ?_, ?_, ?_, ?_, ?_, ?_⟩
    · show left ≤ i; omega
    · show i ≤ right + 1; omega
    · show j ≤ right; omega
    · intro k hk1 hk2
      show lt p (s.x k) = false
      by_cases hks : k < s.i
      · exact h.lo k hk1 hks
      · exact hasym _ _ (i4 k (by omega) hk2)
    · intro k hk1 hk2
      show lt (s.x k) p = false
      by_cases hks : s.j < k
      · exact h.hi2 k hks hk2
      · exact hasym _ _ (j4 k hk1 (by omega))
    · intro hc; exact absurd hc hle
    · intro hc; exact absurd hc hle

theorem partition_spec {sw : Nat → Nat → C → C} {left right : Nat}
    (hasym : ∀ a b, lt a b = true → lt b a = false)
    (hr : right < n) (fuel : Nat) (s : PartState κ C) (h : PInv lt p left right s)
    (hf : right + 3 ≤ fuel + s.i) :
    ∃ s' L, partitionLoop lt n sw p fuel s = some s' ∧ PInv lt p left right s' ∧ s'.j < s'.i ∧
      s.i ≤ s'.i ∧ s'.j ≤ s.j ∧ SwapsIn left right L ∧ s'.x = runSwaps s.x L ∧
      s'.c = L.foldl (fun c q => sw q.1 q.2 c) s.c := by
  induction fuel generalizing s with
  | zero => have := h.hi'; omega
  | succ fuel ih =>
    by_cases hij : s.i ≤ s.j
    · obtain ⟨i, j, ei, ej, h1, h2, h3, h4, -, -, hA, hB⟩ := partition_step (sw := sw) hasym hr h hij
      have hjr := h.hj
      have hil := h.hi
      by_cases hle : i ≤ j
      · obtain ⟨s', L, e, hI, hlt, g1, g2, g3, g4, g5⟩ := ih _ (hA hle) (by show right + 3 ≤ fuel + (i + 1); omega)
        refine ⟨s', (i, j) :: L, ?_, hI, hlt, ?_, ?_, ?_, ?_, ?_⟩
        · simp only [partitionLoop, hij, if_true, ei, ej, hle]; exact e
        · have : i + 1 ≤ s'.i := g1; omega
        · have : s'.j ≤ (if j > 0 then j - 1 else j) := g2
          split at this <;> omega
        · intro q hq
          rcases List.mem_cons.1 hq with rfl | hq
          · show left ≤ i ∧ i ≤ right ∧ left ≤ j ∧ j ≤ right
            omega
          · exact g3 q hq
        · rw [g4]; rfl
        · rw [g5]; rfl
      · have hf1 : 0 < fuel := by omega
        obtain ⟨f, rfl⟩ : ∃ f, fuel = f + 1 := ⟨fuel - 1, by omega⟩
        refine ⟨{ s with i := i, j := j }, [], ?_, hB hle, by show j < i; omega, h1, h3, ?_, rfl, rfl⟩
        · simp only [partitionLoop, hij, if_true, ei, ej, hle, if_false]
        · intro q hq; simp at hq
    · refine ⟨s, [], ?_, h, by omega, le_refl _, le_refl _, ?_, rfl, rfl⟩
      · simp [partitionLoop, hij]
      · intro q hq; simp at hq

/-! ## Quicksort -/

/-- Correctness core of `quicksort`. The ordering part needs `≤` (`¬ >`) to be transitive;
everything else only needs the comparison to be asymmetric. -/
theorem quicksort_core {sw : Nat → Nat → C → C} (hasym : ∀ a b, lt a b = true → lt b a = false)
    (fuel : Nat) (x : Nat → κ) (c : C) (left right : Nat) (hlr : left ≤ right) (hr : right < n)
    (hf : right < fuel + left) :
    ∃ x' c' L, quicksort lt n sw fuel x c left right = some (x', c') ∧ SwapsIn left right L ∧
      x' = runSwaps x L ∧ c' = L.foldl (fun c q => sw q.1 q.2 c) c ∧
      ((∀ a b d, lt b a = false → lt d b = false → lt d a = false) →
        ∀ a b, left ≤ a → a < b → b ≤ right → lt (x' b) (x' a) = false) := by
  induction fuel generalizing x c left right with
  | zero => omega
  | succ fuel ih =>
    have hmid : (left + right) / 2 < n := by omega
    set m := (left + right) / 2 with hm
    set p := x m with hp
    have hirr : lt p p = false := by
      cases hh : lt p p
      · rfl
      · exact (hasym _ _ hh).symm.trans hh |>.symm ▸ rfl
    -- first iteration by hand
    have hI0 : PInv lt p left right ({ x := x, c := c, i := left, j := right } : PartState κ C) :=
      { hi := le_refl _
        hi' := by show left ≤ right + 1; omega
        hj := le_refl _
        lo := fun k h1 h2 => by have : k < left := h2; omega
        hi2 := fun k h1 h2 => by have : right < k := h1; omega
        up := fun _ => ⟨m, by show left ≤ m; omega, by omega, hirr⟩
        dn := fun _ => ⟨m, by omega, by show m ≤ right; omega, hirr⟩ }
    obtain ⟨i0, j0, ei, ej, b1, b2, b3, b4, bU, bD, hA, -⟩ := partition_step (sw := sw) hasym hr hI0 hlr
    have hi0 : i0 ≤ m := bU m (by show left ≤ m; omega) (by omega) hirr
    have hj0 : m ≤ j0 := bD m (by omega) (by show m ≤ right; omega) hirr
    have hij0 : i0 ≤ j0 := by omega
    have b1 : left ≤ i0 := b1
    have b3 : j0 ≤ right := b3
    obtain ⟨s, L, e, hI, hlt, g1, g2, g3, g4, g5⟩ := partition_spec (sw := sw) hasym hr (n + 1) _ (hA hij0)
      (by show right + 3 ≤ n + 1 + (i0 + 1); omega)
    have g1 : i0 + 1 ≤ s.i := g1
    have g2 : s.j ≤ (if j0 > 0 then j0 - 1 else j0) := g2
    have g4 : s.x = runSwaps (swapAt x i0 j0) L := g4
    have g5 : s.c = L.foldl (fun c q => sw q.1 q.2 c) (sw i0 j0 c) := g5
    have epart : partitionLoop lt n sw p (n + 2) { x := x, c := c, i := left, j := right } = some s := by
      simp only [partitionLoop, hlr, if_true, ei, ej, hij0]; exact e
    have hsi : left + 1 ≤ s.i := by omega
    have hsj : s.j < right ∨ s.j = 0 := by split at g2 <;> omega
    have hin0 : SwapsIn left right ((i0, j0) :: L) := by
      intro q hq
      rcases List.mem_cons.1 hq with rfl | hq
      · show left ≤ i0 ∧ i0 ≤ right ∧ left ≤ j0 ∧ j0 ≤ right; omega
      · exact g3 q hq
    have ex0 : s.x = runSwaps x ((i0, j0) :: L) := by rw [g4]; rfl
    have ec0 : s.c = ((i0, j0) :: L).foldl (fun c q => sw q.1 q.2 c) c := by rw [g5]; rfl
    -- first recursive call
    obtain ⟨x1, c1, L1, e1, h1in, h1x, h1c, h1s⟩ :
        ∃ x1 c1 L1, (if s.j > 0 ∧ left < s.j then quicksort lt n sw fuel s.x s.c left s.j else some (s.x, s.c))
            = some (x1, c1) ∧ SwapsIn left s.j L1 ∧ x1 = runSwaps s.x L1 ∧
            c1 = L1.foldl (fun c q => sw q.1 q.2 c) s.c ∧
            ((∀ a b d, lt b a = false → lt d b = false → lt d a = false) →
              ∀ a b, left ≤ a → a < b → b ≤ s.j → lt (x1 b) (x1 a) = false) := by
      by_cases hcond : s.j > 0 ∧ left < s.j
      · rw [if_pos hcond]
        have := hI.hj
        exact ih s.x s.c left s.j (by omega) (by omega) (by omega)
      · rw [if_neg hcond]
        refine ⟨s.x, s.c, [], rfl, fun q hq => by simp at hq, rfl, rfl, fun _ a b h1 h2 h3 => by omega⟩
    obtain ⟨x2, c2, L2, e2, h2in, h2x, h2c, h2s⟩ :
        ∃ x2 c2 L2, (if s.i < right then quicksort lt n sw fuel x1 c1 s.i right else some (x1, c1))
            = some (x2, c2) ∧ SwapsIn s.i right L2 ∧ x2 = runSwaps x1 L2 ∧
            c2 = L2.foldl (fun c q => sw q.1 q.2 c) c1 ∧
            ((∀ a b d, lt b a = false → lt d b = false → lt d a = false) →
              ∀ a b, s.i ≤ a → a < b → b ≤ right → lt (x2 b) (x2 a) = false) := by
      by_cases hcond : s.i < right
      · rw [if_pos hcond]
        exact ih x1 c1 s.i right (by omega) (by omega) (by omega)
      · rw [if_neg hcond]
        refine ⟨x1, c1, [], rfl, fun q hq => by simp at hq, rfl, rfl, fun _ a b h1 h2 h3 => by omega⟩
    have hjr := hI.hj
    have hii := hI.hi
    refine ⟨x2, c2, ((i0, j0) :: L) ++ (L1 ++ L2), ?_, ?_, ?_, ?_, ?_⟩
    · rw [quicksort]
      simp only [← hm, hmid, if_true]
      rw [← hp, epart]
      simp only
      rw [e1]
      exact e2
    · exact hin0.append ((h1in.mono (le_refl _) hjr).append (h2in.mono (by omega) (le_refl _)))
    · rw [runSwaps_append, runSwaps_append, ← ex0, ← h1x, ← h2x]
    · rw [List.foldl_append, List.foldl_append, ← ec0, ← h1c, ← h2c]
    · intro htr a b ha hab hb
      -- values on each side of the pivot
      have x2eq : ∀ k, k < s.i → x2 k = x1 k := by
        intro k hk
        rw [h2x, runSwaps_eq]; simp [permOf_fix h2in (Or.inl hk)]
      have x1eq : ∀ k, s.j < k → x1 k = s.x k := by
        intro k hk
        rw [h1x, runSwaps_eq]; simp [permOf_fix h1in (Or.inr hk)]
      have lo : ∀ k, left ≤ k → k < s.i → lt p (x2 k) = false := by
        intro k hk1 hk2
        rw [x2eq k hk2]
        by_cases hkj : k ≤ s.j
        · rw [h1x, runSwaps_eq]
          have := permOf_mem h1in ⟨hk1, hkj⟩
          exact hI.lo _ this.1 (by omega)
        · rw [x1eq k (by omega)]; exact hI.lo k hk1 hk2
      have hi : ∀ k, s.j < k → k ≤ right → lt (x2 k) p = false := by
        intro k hk1 hk2
        by_cases hki : k < s.i
        · rw [x2eq k hki, x1eq k hk1]; exact hI.hi2 k hk1 hk2
        · rw [h2x, runSwaps_eq]
          have := permOf_mem h2in ⟨(by omega : s.i ≤ k), hk2⟩
          show lt (x1 (permOf L2 k)) p = false
          rw [x1eq _ (by omega)]
          exact hI.hi2 _ (by omega) this.2
      by_cases hbj : b ≤ s.j
      · rw [x2eq b (by omega), x2eq a (by omega)]
        exact h1s htr a b ha hab hbj
      · by_cases hai : s.i ≤ a
        · exact h2s htr a b hai hab hb
        · exact htr _ _ _ (lo a ha (by omega)) (hi b (by omega) hb)

end

end VoroCrust
