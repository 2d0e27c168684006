import Verif.Props.Culling
import Verif.Props.Sliver
import Mathlib.Tactic.IntervalCases

/-!
# C59, C74: the Lipschitz pass of the mesher
-/

namespace VoroCrust

/-! ## One sweep -/

/-- What a sequence of comparisons does to the sizes of the first `n` points and the flag. -/
structure LipStep (n : Nat) (s s' : (Nat → ℝ) × Bool) : Prop where
  le : ∀ k, s'.1 k ≤ s.1 k
  same : s'.2 = true → s.2 = true ∧ s'.1 = s.1
  drop : s.2 = true → s'.2 = false → ∑ k ∈ Finset.range n, s'.1 k + 1e-10 ≤ ∑ k ∈ Finset.range n, s.1 k

theorem LipStep.refl (n : Nat) (s : (Nat → ℝ) × Bool) : LipStep n s s := ⟨fun _ => le_refl _, fun h => ⟨h, rfl⟩, fun h1 h2 => by rw [h1] at h2; simp at h2⟩

theorem LipStep.trans {n : Nat} {a b c : (Nat → ℝ) × Bool} (h : LipStep n a b) (k : LipStep n b c) : LipStep n a c := by
  refine ⟨fun i => (k.le i).trans (h.le i), fun hc => ?_, fun ha hc => ?_⟩
  · obtain ⟨h1, h2⟩ := k.same hc
    obtain ⟨h3, h4⟩ := h.same h1
    exact ⟨h3, h2.trans h4⟩
  · cases hb : b.2 with
    | false =>
      have h1 := h.drop ha hb
      have h2 : ∑ i ∈ Finset.range n, c.1 i ≤ ∑ i ∈ Finset.range n, b.1 i := Finset.sum_le_sum fun i _ => k.le i
      linarith
    | true =>
      have h1 := k.drop hb hc
      rw [(h.same hb).2] at h1
      exact h1

/-- Sizes are at least what the condition demands of the sizes `sz0`. -/
def LipLow (P : PointStore ℝ) (L : ℝ) (sz0 sz : Nat → ℝ) : Prop := ∀ k, k < P.num → ∃ j, j < P.num ∧ sz0 j + L * euclid 3 (P.pts k) (P.pts j) ≤ sz k

/-- The condition for one ordered pair, up to `1e-10`. -/
def PairOK (P : PointStore ℝ) (L : ℝ) (sz : Nat → ℝ) (i j : Nat) : Prop := sz i ≤ sz j + L * euclid 3 (P.pts i) (P.pts j) + 1e-10

theorem meshLipPair_spec {P : PointStore ℝ} {L : ℝ} (hL : 0 ≤ L) {i j : Nat} (hi : i < P.num) (hj : j < P.num) {sz0 : Nat → ℝ} {s : (Nat → ℝ) × Bool} (hlow : LipLow P L sz0 s.1) :
    LipStep P.num s (meshLipPair P L i j s) ∧ LipLow P L sz0 (meshLipPair P L i j s).1 ∧ ((meshLipPair P L i j s).2 = true → PairOK P L s.1 i j) := by
  have hd : 0 ≤ L * euclid 3 (P.pts i) (P.pts j) := mul_nonneg hL (euclid_nonneg _ _ _)
  unfold meshLipPair
  split_ifs with h
  · refine ⟨LipStep.refl _ _, hlow, fun _ => ?_⟩
    unfold PairOK
    have : s.1 i < s.1 j := h
    norm_num; linarith
  · simp only
    rw [distance_eq, mul_comm (euclid _ _ _) L]
    split_ifs with h2
    · have h2' : s.1 j + L * euclid 3 (P.pts i) (P.pts j) + 1e-10 < s.1 i := h2
      have hp : (0 : ℝ) < 1e-10 := by norm_num
      refine ⟨⟨fun k => ?_, by simp, fun _ _ => ?_⟩, fun k hk => ?_, by simp⟩
      · simp only [upd]
        split_ifs with hk
        · subst hk; linarith
        · exact le_refl _
      · rw [← Finset.add_sum_erase _ _ (Finset.mem_range.2 hi), ← Finset.add_sum_erase _ s.1 (Finset.mem_range.2 hi)]
        have : ∑ k ∈ (Finset.range P.num).erase i, upd s.1 i (s.1 j + L * euclid 3 (P.pts i) (P.pts j)) k = ∑ k ∈ (Finset.range P.num).erase i, s.1 k :=
          Finset.sum_congr rfl fun k hk => by simp [upd, (Finset.mem_erase.1 hk).1]
        simp only
        rw [this]
        simp only [upd, if_true]
        linarith
      · by_cases hki : k = i
        · subst hki
          obtain ⟨m, hm, hm2⟩ := hlow j hj
          refine ⟨m, hm, ?_⟩
          simp only [upd, if_true]
          have := euclid_triangle 3 (P.pts k) (P.pts j) (P.pts m)
          have := mul_le_mul_of_nonneg_left this hL
          linarith
        · obtain ⟨m, hm, hm2⟩ := hlow k hk
          exact ⟨m, hm, by simpa [upd, hki] using hm2⟩
    · refine ⟨LipStep.refl _ _, hlow, fun _ => ?_⟩
      unfold PairOK
      exact not_lt.1 h2

theorem meshLipNbrs_spec {P : PointStore ℝ} {L : ℝ} (hL : 0 ≤ L) {i : Nat} (hi : i < P.num) (l : List Nat) (hl : ∀ j ∈ l, j < P.num) {sz0 : Nat → ℝ} {s : (Nat → ℝ) × Bool}
    (hlow : LipLow P L sz0 s.1) :
    LipStep P.num s (meshLipNbrs P L i l s) ∧ LipLow P L sz0 (meshLipNbrs P L i l s).1 ∧ ((meshLipNbrs P L i l s).2 = true → ∀ j ∈ l, PairOK P L s.1 i j) := by
  induction l generalizing s with
  | nil => exact ⟨LipStep.refl _ _, hlow, by simp⟩
  | cons j l ih =>
    obtain ⟨h1, h2, h3⟩ := meshLipPair_spec hL hi (hl j (by simp)) hlow
    obtain ⟨h4, h5, h6⟩ := ih (fun k hk => hl k (by simp [hk])) h2
    refine ⟨h1.trans h4, h5, fun ht k hk => ?_⟩
    have ht' : (meshLipNbrs P L i l (meshLipPair P L i j s)).2 = true := ht
    obtain ⟨h7, -⟩ := h4.same ht'
    rcases List.mem_cons.1 hk with rfl | hk
    · exact h3 h7
    · have := h6 ht' k hk
      rwa [(h1.same h7).2] at this

/-- The neighbour lists are written and in bounds. -/
def NbrOK (n : Nat) (nbr : Nat → Option (List Nat)) : Prop := ∀ i, i < n → ∃ l, nbr i = some l ∧ ∀ j ∈ l, j < n

theorem meshLipSweep_spec {P : PointStore ℝ} {L : ℝ} (hL : 0 ≤ L) {nbr : Nat → Option (List Nat)} (hn : NbrOK P.num nbr) (is : List Nat) (his : ∀ i ∈ is, i < P.num) {sz0 : Nat → ℝ}
    {s : (Nat → ℝ) × Bool} (hlow : LipLow P L sz0 s.1) :
    ∃ s', meshLipSweep P L nbr is s = some s' ∧ LipStep P.num s s' ∧ LipLow P L sz0 s'.1 ∧ (s'.2 = true → ∀ i ∈ is, ∀ l, nbr i = some l → ∀ j ∈ l, PairOK P L s.1 i j) := by
  induction is generalizing s with
  | nil => exact ⟨s, rfl, LipStep.refl _ _, hlow, by simp⟩
  | cons i is ih =>
    have hi := his i (by simp)
    obtain ⟨l, el, hl⟩ := hn i hi
    obtain ⟨h1, h2, h3⟩ := meshLipNbrs_spec hL hi l hl hlow
    obtain ⟨s', e, h4, h5, h6⟩ := ih (fun k hk => his k (by simp [hk])) h2
    refine ⟨s', ?_, h1.trans h4, h5, fun ht k hk m hm j hj => ?_⟩
    · unfold meshLipSweep
      rw [el]
      simp only
      rw [if_pos (by simpa using hl)]
      exact e
    · obtain ⟨h7, -⟩ := h4.same ht
      rcases List.mem_cons.1 hk with rfl | hk
      · obtain rfl := Option.some.inj (el.symm.trans hm)
        exact h3 h7 j hj
      · have := h6 ht k hk m hm j hj
        rwa [(h1.same h7).2] at this

theorem meshLipLoop_spec {P : PointStore ℝ} {L : ℝ} (hL : 0 ≤ L) {nbr : Nat → Option (List Nat)} (hn : NbrOK P.num nbr) {sz0 : Nat → ℝ} (h0 : ∀ k, k < P.num → 0 ≤ sz0 k) (m : Nat)
    {sz : Nat → ℝ} (hlow : LipLow P L sz0 sz) (hm : ∑ k ∈ Finset.range P.num, sz k < m * 1e-10) :
    ∃ sz', (∀ fuel, m ≤ fuel → meshLipLoop P L nbr fuel sz = some sz') ∧ (∀ k, sz' k ≤ sz k) ∧ LipLow P L sz0 sz' ∧
      ∀ i, i < P.num → ∀ l, nbr i = some l → ∀ j ∈ l, PairOK P L sz' i j := by
  have pos : ∀ {z : Nat → ℝ}, LipLow P L sz0 z → 0 ≤ ∑ k ∈ Finset.range P.num, z k := by
    intro z hz
    refine Finset.sum_nonneg fun k hk => ?_
    obtain ⟨j, hj, hj2⟩ := hz k (Finset.mem_range.1 hk)
    have := h0 j hj
    have := mul_nonneg hL (euclid_nonneg 3 (P.pts k) (P.pts j))
    linarith
  induction m generalizing sz with
  | zero =>
    have := pos hlow
    simp at hm
    linarith
  | succ m ih =>
    obtain ⟨⟨sz1, b⟩, e, h1, h2, h3⟩ := meshLipSweep_spec hL hn (List.range P.num) (fun i hi => List.mem_range.1 hi) (s := (sz, true)) hlow
    cases b with
    | true =>
      obtain ⟨-, h4⟩ := h1.same rfl
      simp only at h4
      subst h4
      refine ⟨sz1, fun fuel hf => ?_, fun _ => le_refl _, hlow, fun i hi => h3 rfl i (List.mem_range.2 hi)⟩
      obtain ⟨f, rfl⟩ : ∃ f, fuel = f + 1 := ⟨fuel - 1, by omega⟩
      unfold meshLipLoop
      rw [e]; simp
    | false =>
      have h4 := h1.drop rfl rfl
      simp only at h4 h2
      obtain ⟨sz2, h5, h6, h7, h8⟩ := ih h2 (by push_cast at hm; norm_num at hm h4 ⊢; linarith)
      refine ⟨sz2, fun fuel hf => ?_, fun k => (h6 k).trans (h1.le k), h7, h8⟩
      obtain ⟨f, rfl⟩ : ∃ f, fuel = f + 1 := ⟨fuel - 1, by omega⟩
      unfold meshLipLoop
      rw [e]; simp only [Bool.false_eq_true, if_false]
      exact h5 f (by omega)

theorem lipLow_self {P : PointStore ℝ} {L : ℝ} (sz : Nat → ℝ) : LipLow P L sz sz := fun k hk => ⟨k, hk, by rw [euclid_self]; simp⟩

/-- The sweeps end, for all neighbour lists. -/
theorem meshLipLoop_ends {P : PointStore ℝ} {L : ℝ} (hL : 0 ≤ L) {nbr : Nat → Option (List Nat)} (hn : NbrOK P.num nbr) {sz : Nat → ℝ} (h0 : ∀ k, k < P.num → 0 ≤ sz k) :
    ∃ sz' N, (∀ fuel, N ≤ fuel → meshLipLoop P L nbr fuel sz = some sz') ∧ (∀ k, sz' k ≤ sz k) ∧ LipLow P L sz sz' ∧
      ∀ i, i < P.num → ∀ l, nbr i = some l → ∀ j ∈ l, PairOK P L sz' i j := by
  obtain ⟨m, hm⟩ := exists_nat_gt ((∑ k ∈ Finset.range P.num, sz k) / 1e-10)
  obtain ⟨sz', h⟩ := meshLipLoop_spec hL hn h0 m (lipLow_self sz) (by rwa [div_lt_iff₀ (by norm_num)] at hm)
  exact ⟨sz', m, h⟩

/-! ## Copying the sizes back -/

theorem putSizes_spec {T : MTree} {xs : List SeedRec} (h : T.Holds xs) (sz : Nat → ℝ) (n : Nat) (hn : n ≤ xs.length) :
    ∃ ys, putSizes T sz n xs = some ys ∧ ys.length = xs.length ∧ (∀ i o a, i < n → T.old i = some o → xs[o]? = some a → ys[o]? = some { a with size := sz i }) ∧
      ∀ o, (∀ i, i < n → T.old i ≠ some o) → ys[o]? = xs[o]? := by
  induction n with
  | zero => exact ⟨xs, rfl, rfl, by simp, by simp⟩
  | succ n ih =>
    obtain ⟨ys, e, h1, h2, h3⟩ := ih (by omega)
    obtain ⟨o, a, h4, h5, -⟩ := h.old n (by omega)
    have hfresh : ∀ i, i < n → T.old i ≠ some o := by
      intro i hi he
      have := h.inj i n o (by omega) (by omega) he h4
      omega
    have h6 : ys[o]? = some a := by rw [h3 o hfresh, h5]
    have hlt : o < ys.length := (List.getElem?_eq_some_iff.1 h6).1
    refine ⟨ys.set o { a with size := sz n }, ?_, by simp [h1], ?_, ?_⟩
    · unfold putSizes
      rw [e]
      unfold putSize
      rw [h4]
      simp only [h6]
    · intro i o' a' hi ho ha
      rw [List.getElem?_set]
      by_cases hin : i = n
      · subst hin
        obtain rfl := Option.some.inj (h4.symm.trans ho)
        obtain rfl := Option.some.inj (h5.symm.trans ha)
        rw [if_pos rfl, if_pos hlt]
      · have : o ≠ o' := fun he => hfresh i (by omega) (he ▸ ho)
        rw [if_neg this]
        exact h2 i o' a' (by omega) ho ha
    · intro o' ho'
      have : o ≠ o' := fun he => ho' n (by omega) (he ▸ h4)
      rw [List.getElem?_set, if_neg this]
      exact h3 o' fun i hi => ho' i (by omega)

theorem nbrLists_ok {P : PointStore ℝ} {ln : Links} (hT : RealTree P ln) (hd : P.dim = 3) {sz : Nat → ℝ} (h0 : ∀ k, k < P.num → 0 ≤ sz k) :
    ∀ i, i < P.num → ∃ l, nbrLists P ln sz i = some l ∧ (∀ j ∈ l, j < P.num) ∧ (∀ j ∈ l, euclidSq 3 (P.pts i) (P.pts j) < (1 + 2e-6) * (2 * sz i) ^ 2) ∧
      ∀ j, j < P.num → euclid 3 (P.pts i) (P.pts j) < 2 * sz i → j ∈ l := by
  intro i hi
  obtain ⟨l, e, -, h2, h3⟩ := C08_in_sphere_sound_complete P ln hT (fun _ => true) (P.pts i) (2 * sz i) (by have := h0 i hi; linarith)
  rw [hd] at h2 h3
  exact ⟨l, e, fun j hj => (h2 j hj).1, fun j hj => (h2 j hj).2.2, fun j hj => h3 j hj rfl⟩

/-- **C74, what holds.** For all seeds with sizes `≥ 0` and every `L ≥ 0` the pass of the mesher ends.  It changes nothing but sizes, which never grow, and never fall below what the original sizes
demand; and for each seed and every seed closer than twice its original size the Lipschitz condition holds afterwards, up to `1e-10`.  For `L ≥ 1/2` it then holds for all pairs.
Missing: pairs further apart than twice the size, for `L < 1/2` (see `C74_distant_pair_false`). -/
theorem C74_mesher_lipschitz_partial (L : ℝ) (hL : 0 ≤ L) (T : MTree) (xs : List SeedRec) (hT : T.Holds xs) (h0 : ∀ a ∈ xs, 0 ≤ a.size) :
    ∃ ys N, (∀ fuel, N ≤ fuel → lipschitzSeeds L fuel T xs = some ys) ∧ ys.length = xs.length ∧
      (∀ (i : Nat) (a b : SeedRec), xs[i]? = some a → ys[i]? = some b →
        b.x = a.x ∧ b.region = a.region ∧ b.size ≤ a.size ∧ ∃ c ∈ xs, c.size + L * euclid 3 a.x c.x ≤ b.size) ∧
      (∀ (i j : Nat) (a b c : SeedRec), xs[i]? = some a → ys[i]? = some b → ys[j]? = some c → euclid 3 b.x c.x < 2 * a.size → b.size ≤ c.size + L * euclid 3 b.x c.x + 1e-10) ∧
      (1 / 2 ≤ L → ∀ b ∈ ys, ∀ c ∈ ys, b.size ≤ c.size + L * euclid 3 b.x c.x + 1e-10) := by
  have hsz : ∀ i, i < T.P.num → ∀ o a, T.old i = some o → xs[o]? = some a → sortedSizes T xs i = a.size := by
    intro i hi o a ho ha
    simp [sortedSizes, ho, ha]
  have hpos : ∀ k, k < T.P.num → 0 ≤ sortedSizes T xs k := by
    intro k hk
    obtain ⟨o, a, ho, ha, -⟩ := hT.old k (by rw [← hT.num]; exact hk)
    rw [hsz k hk o a ho ha]
    exact h0 a (List.mem_of_getElem? ha)
  have hnb := nbrLists_ok hT.tree hT.dim hpos
  obtain ⟨sz, N, h1, h2, h3, h4⟩ := meshLipLoop_ends hL (fun i hi => by obtain ⟨l, e, hl, -⟩ := hnb i hi; exact ⟨l, e, hl⟩) hpos
  obtain ⟨ys, e, h5, h6, -⟩ := putSizes_spec hT sz xs.length (le_refl _)
  -- every index comes from a tree point
  have hback : ∀ (o : Nat) (a b : SeedRec), xs[o]? = some a → ys[o]? = some b → ∃ i, i < T.P.num ∧ T.old i = some o ∧ T.P.pts i = a.x ∧ b = { a with size := sz i } := by
    intro o a b ha hb
    obtain ⟨i, hi, hi2⟩ := hT.onto o (List.getElem?_eq_some_iff.1 ha).1
    obtain ⟨o', a', q1, q2, q3⟩ := hT.old i hi
    obtain rfl := Option.some.inj (q1.symm.trans hi2)
    obtain rfl := Option.some.inj (q2.symm.trans ha)
    have := h6 i o' a' hi hi2 ha
    exact ⟨i, by rw [hT.num]; exact hi, hi2, q3, Option.some.inj (hb.symm.trans this)⟩
  have hxs : ∀ (j : Nat) (c : SeedRec), ys[j]? = some c → ∃ a, xs[j]? = some a := by
    intro j c hc
    exact ⟨_, List.getElem?_eq_getElem (by rw [← h5]; exact (List.getElem?_eq_some_iff.1 hc).1)⟩
  have hnear : ∀ (i j : Nat) (a b c : SeedRec), xs[i]? = some a → ys[i]? = some b → ys[j]? = some c → euclid 3 b.x c.x < 2 * a.size → b.size ≤ c.size + L * euclid 3 b.x c.x + 1e-10 := by
    intro i j a b c ha hb hc hd
    obtain ⟨a', ha'⟩ := hxs j c hc
    obtain ⟨i', hi1, hi2, hi3, rfl⟩ := hback i a b ha hb
    obtain ⟨j', hj1, hj2, hj3, rfl⟩ := hback j a' c ha' hc
    simp only at hd ⊢
    obtain ⟨l, el, -, -, hl⟩ := hnb i' hi1
    have := h4 i' hi1 l el j' (hl j' hj1 (by rw [hi3, hj3, hsz i' hi1 i a hi2 ha]; exact hd))
    unfold PairOK at this
    rw [hi3, hj3] at this
    exact this
  refine ⟨ys, N, fun fuel hf => ?_, h5, ?_, hnear, ?_⟩
  · unfold lipschitzSeeds
    simp only
    rw [h1 fuel hf]
    exact e
  · intro i a b ha hb
    obtain ⟨i', hi1, hi2, hi3, rfl⟩ := hback i a b ha hb
    refine ⟨rfl, rfl, ?_, ?_⟩
    · have := h2 i'
      rw [hsz i' hi1 i a hi2 ha] at this
      exact this
    · obtain ⟨j, hj, hj2⟩ := h3 i' hi1
      obtain ⟨o, c, q1, q2, q3⟩ := hT.old j (by rw [← hT.num]; exact hj)
      rw [hsz j hj o c q1 q2, hi3, q3] at hj2
      exact ⟨c, List.mem_of_getElem? q2, hj2⟩
  · intro hL2 b hb c hc
    obtain ⟨i, hi⟩ := List.getElem?_of_mem hb
    obtain ⟨j, hj⟩ := List.getElem?_of_mem hc
    obtain ⟨a, ha⟩ := hxs i b hi
    obtain ⟨a', ha'⟩ := hxs j c hj
    by_cases hd : euclid 3 b.x c.x < 2 * a.size
    · exact hnear i j a b c ha hi hj hd
    · obtain ⟨i', hi1, hi2, hi3, rfl⟩ := hback i a b ha hi
      obtain ⟨j', hj1, hj2, hj3, rfl⟩ := hback j a' c ha' hj
      simp only at hd ⊢
      have g1 := h2 i'
      rw [hsz i' hi1 i a hi2 ha] at g1
      have g2 : 0 ≤ sz j' := by
        obtain ⟨k, hk, hk2⟩ := h3 j' hj1
        have := hpos k hk
        have := mul_nonneg hL (euclid_nonneg 3 (T.P.pts j') (T.P.pts k))
        linarith
      push Not at hd
      have g3 : 1 / 2 * euclid 3 a.x a'.x ≤ L * euclid 3 a.x a'.x := mul_le_mul_of_nonneg_right hL2 (euclid_nonneg _ _ _)
      have : (0 : ℝ) < 1e-10 := by norm_num
      linarith

/-! ## Sizes that are not touched -/

theorem meshLipPair_ok {P : PointStore ℝ} {L : ℝ} {i j : Nat} {s : (Nat → ℝ) × Bool} (h : PairOK P L s.1 i j) : meshLipPair P L i j s = s := by
  unfold meshLipPair
  split_ifs with h1
  · rfl
  · simp only
    rw [distance_eq, mul_comm (euclid _ _ _) L, if_neg (not_lt.2 h)]

theorem meshLipNbrs_ok {P : PointStore ℝ} {L : ℝ} {i : Nat} {s : (Nat → ℝ) × Bool} (l : List Nat) (h : ∀ j ∈ l, PairOK P L s.1 i j) : meshLipNbrs P L i l s = s := by
  induction l with
  | nil => rfl
  | cons j l ih =>
    unfold meshLipNbrs
    rw [meshLipPair_ok (h j (by simp))]
    exact ih fun k hk => h k (by simp [hk])

theorem meshLipLoop_ok {P : PointStore ℝ} {L : ℝ} {nbr : Nat → Option (List Nat)} {sz : Nat → ℝ} (h : ∀ i, i < P.num → ∃ l, nbr i = some l ∧ ∀ j ∈ l, j < P.num ∧ PairOK P L sz i j)
    {fuel : Nat} (hf : 1 ≤ fuel) : meshLipLoop P L nbr fuel sz = some sz := by
  have sweep : ∀ is : List Nat, (∀ i ∈ is, i < P.num) → meshLipSweep P L nbr is (sz, true) = some (sz, true) := by
    intro is
    induction is with
    | nil => intro _; rfl
    | cons i is ih =>
      intro his
      obtain ⟨l, el, hl⟩ := h i (his i (by simp))
      unfold meshLipSweep
      rw [el]
      simp only
      rw [if_pos (by simpa using fun j hj => (hl j hj).1), meshLipNbrs_ok (s := (sz, true)) l fun j hj => (hl j hj).2]
      exact ih fun k hk => his k (by simp [hk])
  obtain ⟨f, rfl⟩ : ∃ f, fuel = f + 1 := ⟨fuel - 1, by omega⟩
  unfold meshLipLoop
  rw [sweep _ fun i hi => List.mem_range.1 hi]
  simp

/-- Two seeds 2.1 apart with sizes 1 and 0.1. -/
noncomputable def dSeeds : List SeedRec := [⟨fun _ => 0, 1, 1⟩, ⟨fun d => if d = 0 then 2.1 else 0, 0.1, 1⟩]

theorem dSeeds_dist : euclid 3 (fun _ => (0 : ℝ)) (fun d => if d = 0 then (2.1 : ℝ) else 0) = 2.1 := by
  rw [euclid3_axis _ _ (by simp) (by simp)]; norm_num [abs_of_pos]

/-- **C74 fails** for `L < 1/2`: the pass only compares a seed with seeds closer than twice its size.  With `L = 1/4` a seed of size 1 keeps its size although there is a seed of size
0.1 at distance 2.1, which allows 0.625. -/
theorem C74_distant_pair_false : ∃ (T : MTree) (xs ys : List SeedRec), T.Holds xs ∧ (∀ a ∈ xs, 0 < a.size) ∧ (∀ fuel, 1 ≤ fuel → lipschitzSeeds (1 / 4) fuel T xs = some ys) ∧
    ∃ b ∈ ys, ∃ c ∈ ys, c.size + 1 / 4 * euclid 3 b.x c.x + 0.3 < b.size := by
  obtain ⟨T, -, hT⟩ := meshTree_spec (xs := dSeeds) (by simp [dSeeds]) (le_refl _)
  have hsz : ∀ i, i < T.P.num → ∃ a ∈ dSeeds, sortedSizes T dSeeds i = a.size ∧ T.P.pts i = a.x := by
    intro i hi
    obtain ⟨o, a, h1, h2, h3⟩ := hT.old i (by rw [← hT.num]; exact hi)
    exact ⟨a, List.mem_of_getElem? h2, by simp [sortedSizes, h1, h2], h3⟩
  have hpos : ∀ k, k < T.P.num → 0 ≤ sortedSizes T dSeeds k := by
    intro k hk
    obtain ⟨a, ha, e, -⟩ := hsz k hk
    rw [e]
    simp only [dSeeds, List.mem_cons, List.not_mem_nil, or_false] at ha
    rcases ha with rfl | rfl <;> norm_num
  have hnb := nbrLists_ok hT.tree hT.dim hpos
  have hloop : ∀ fuel, 1 ≤ fuel → meshLipLoop T.P (1 / 4) (nbrLists T.P T.ln (sortedSizes T dSeeds)) fuel (sortedSizes T dSeeds) = some (sortedSizes T dSeeds) := by
    intro fuel hf
    refine meshLipLoop_ok (fun i hi => ?_) hf
    obtain ⟨l, el, h1, h2, -⟩ := hnb i hi
    refine ⟨l, el, fun j hj => ⟨h1 j hj, ?_⟩⟩
    obtain ⟨a, ha, ea, pa⟩ := hsz i hi
    obtain ⟨c, hc, ec, pc⟩ := hsz j (h1 j hj)
    have h3 := h2 j hj
    unfold PairOK
    rw [ea, ec, pa, pc]
    rw [ea, pa, pc] at h3
    unfold euclidSq at h3
    rw [← euclid_sq] at h3
    simp only [dSeeds, List.mem_cons, List.not_mem_nil, or_false] at ha hc
    rcases ha with rfl | rfl <;> rcases hc with rfl | rfl
    · simp only [euclid_self]; norm_num
    · rw [dSeeds_dist] at h3; norm_num at h3
    · simp only; rw [euclid_comm, dSeeds_dist]; norm_num
    · simp only [euclid_self]; norm_num
  obtain ⟨ys, e, h5, h6, -⟩ := putSizes_spec hT (sortedSizes T dSeeds) dSeeds.length (le_refl _)
  have hys : ys = dSeeds := by
    refine List.ext_getElem? fun o => ?_
    by_cases ho : o < dSeeds.length
    · obtain ⟨i, hi, hi2⟩ := hT.onto o ho
      rw [h6 i o dSeeds[o] hi hi2 (List.getElem?_eq_getElem ho), List.getElem?_eq_getElem ho]
      simp [sortedSizes, hi2, List.getElem?_eq_getElem ho]
    · rw [List.getElem?_eq_none (by omega), List.getElem?_eq_none (by omega)]
  subst hys
  refine ⟨T, dSeeds, dSeeds, hT, ?_, fun fuel hf => ?_, ⟨fun _ => 0, 1, 1⟩, by simp [dSeeds], ⟨fun d => if d = 0 then 2.1 else 0, 0.1, 1⟩, by simp [dSeeds], ?_⟩
  · intro a ha
    simp only [dSeeds, List.mem_cons, List.not_mem_nil, or_false] at ha
    rcases ha with rfl | rfl <;> norm_num
  · unfold lipschitzSeeds
    simp only
    rw [hloop fuel hf]
    exact e
  · rw [dSeeds_dist]; norm_num

-- non-vacuity of the partial theorem: the same seeds
example : ∃ (T : MTree), T.Holds dSeeds ∧ ∀ a ∈ dSeeds, 0 ≤ a.size := by
  obtain ⟨T, -, hT⟩ := meshTree_spec (xs := dSeeds) (by simp [dSeeds]) (le_refl _)
  refine ⟨T, hT, fun a ha => ?_⟩
  simp only [dSeeds, List.mem_cons, List.not_mem_nil, or_false] at ha
  rcases ha with rfl | rfl <;> norm_num

/-! ## C59: the shared point -/

/-- The state before the parallel loop: nothing written, each thread has its iterations. -/
noncomputable def NbrState.start (todo : Nat → List Nat) : NbrState := ⟨fun _ => 0, fun _ => none, todo, fun _ => false⟩

/-- Every write of the shared point is followed at once by the search of the same thread. -/
def uninterrupted : List Nat → List Nat
  | [] => []
  | t :: ts => t :: t :: uninterrupted ts

theorem runNbr_uninterrupted (P : PointStore ℝ) (ln : Links) (sz : Nat → ℝ) (ts : List Nat) (s : NbrState) (hw : ∀ t, s.wrote t = false)
    (hn : ∀ i l, s.nbr i = some l → nbrLists P ln sz i = some l) :
    (∀ i l, (runNbr P ln sz (uninterrupted ts) s).nbr i = some l → nbrLists P ln sz i = some l) ∧
      ∀ i, (s.nbr i = nbrLists P ln sz i ∨ ∃ t, i ∈ s.todo t) →
        (runNbr P ln sz (uninterrupted ts) s).nbr i = nbrLists P ln sz i ∨ ∃ t, i ∈ (runNbr P ln sz (uninterrupted ts) s).todo t := by
  induction ts generalizing s with
  | nil => exact ⟨hn, fun i h => h⟩
  | cons t ts ih =>
    unfold uninterrupted
    simp only [runNbr]
    cases htd : s.todo t with
    | nil =>
      have e : nbrStep P ln sz t s = s := by unfold nbrStep; rw [htd]
      rw [e, e]
      exact ih s hw hn
    | cons i is =>
      have e : nbrStep P ln sz t (nbrStep P ln sz t s) =
          { x := P.pts i, nbr := upd s.nbr i (nbrLists P ln sz i), todo := upd s.todo t is, wrote := upd (upd s.wrote t true) t false } := by
        have e1 : nbrStep P ln sz t s = { s with x := P.pts i, wrote := upd s.wrote t true } := by
          unfold nbrStep; rw [htd]; simp only; rw [if_neg (by rw [hw t]; simp)]
        rw [e1]
        unfold nbrStep
        simp only [htd]
        rw [if_pos (by simp [upd])]
        rfl
      rw [e]
      obtain ⟨h1, h2⟩ := ih { x := P.pts i, nbr := upd s.nbr i (nbrLists P ln sz i), todo := upd s.todo t is, wrote := upd (upd s.wrote t true) t false }
        (fun k => by simp only [upd]; split_ifs <;> simp [hw]) (fun k l hk => by
          simp only [upd] at hk
          split_ifs at hk with hki
          · subst hki; exact hk
          · exact hn k l hk)
      refine ⟨h1, fun k hk => h2 k ?_⟩
      by_cases hki : k = i
      · subst hki; left; simp [upd]
      · rcases hk with hk | ⟨u, hu⟩
        · left; simp [upd, hki, hk]
        · right
          by_cases hut : u = t
          · subst hut
            rw [htd] at hu
            exact ⟨u, by simpa [upd, hki] using hu⟩
          · exact ⟨u, by simpa [upd, hut] using hu⟩

/-- **C59, what holds.** For all partitions of the iterations among the threads and every schedule that runs each iteration without interruption and to the end, the neighbour lists are
those of a sequential run. -/
theorem C59_neighbours_partial (P : PointStore ℝ) (ln : Links) (sz : Nat → ℝ) (todo : Nat → List Nat) (hall : ∀ i, i < P.num → ∃ t, i ∈ todo t) (ts : List Nat)
    (hdone : ∀ t, (runNbr P ln sz (uninterrupted ts) (NbrState.start todo)).todo t = []) :
    ∀ i, i < P.num → (runNbr P ln sz (uninterrupted ts) (NbrState.start todo)).nbr i = nbrLists P ln sz i := by
  intro i hi
  obtain ⟨-, h⟩ := runNbr_uninterrupted P ln sz ts (NbrState.start todo) (fun _ => rfl) (by simp [NbrState.start])
  rcases h i (Or.inr (hall i hi)) with h | ⟨t, ht⟩
  · exact h
  · rw [hdone t] at ht; simp at ht

/-- Three seeds: a large one at 0, a small one at 1 and one far away. -/
noncomputable def rSeeds : List SeedRec := [⟨fun _ => 0, 10, 1⟩, ⟨fun d => if d = 0 then 1 else 0, 1, 1⟩, ⟨fun d => if d = 0 then 100 else 0, 1 / 2, 1⟩]
/-- Their sizes. -/
noncomputable def rSize : Nat → ℝ := fun i => if i = 0 then 10 else if i = 1 then 1 else 1 / 2
/-- The first thread has the first two seeds, the second thread the third. -/
def rTodo : Nat → List Nat := fun t => if t = 0 then [0, 1] else if t = 1 then [2] else []

theorem rRun (P : PointStore ℝ) (ln : Links) : (runNbr P ln rSize [0, 1, 0, 1, 0, 0] (NbrState.start rTodo)).nbr 0 =
      sphereQuery Rounding.exact P ln (fun _ => true) (inSphereTest (2 * rSize 0)) (P.pts 2) (2 * rSize 0) ∧
    (runNbr P ln rSize [0, 1, 0, 1, 0, 0] (NbrState.start rTodo)).nbr 1 = nbrLists P ln rSize 1 ∧
    (runNbr P ln rSize [0, 1, 0, 1, 0, 0] (NbrState.start rTodo)).nbr 2 = nbrLists P ln rSize 2 ∧
    ∀ t, (runNbr P ln rSize [0, 1, 0, 1, 0, 0] (NbrState.start rTodo)).todo t = [] := by
  refine ⟨?_, ?_, ?_, fun t => ?_⟩
  · simp [runNbr, nbrStep, NbrState.start, rTodo, upd]
  · simp [runNbr, nbrStep, NbrState.start, rTodo, upd, nbrLists]
  · simp [runNbr, nbrStep, NbrState.start, rTodo, upd, nbrLists]
  · simp [runNbr, nbrStep, NbrState.start, rTodo, upd]
    split_ifs <;> simp_all

theorem rPts : (recStore rSeeds).pts 0 = (fun _ => 0) ∧ (recStore rSeeds).pts 1 = (fun d => if d = 0 then 1 else 0) ∧ (recStore rSeeds).pts 2 = fun d => if d = 0 then 100 else 0 := ⟨rfl, rfl, rfl⟩

theorem rDist (a b : ℝ) : euclid 3 (fun d => if d = 0 then a else 0) (fun d => if d = 0 then b else 0) = |a - b| := by rw [euclid3_axis _ _ (by simp) (by simp)]; simp

theorem rPt (i : Nat) (hi : i < 3) : (recStore rSeeds).pts i = fun d => if d = 0 then (if i = 0 then 0 else if i = 1 then 1 else 100) else 0 := by
  interval_cases i
  · funext d; simp [recStore, rSeeds]
  · rfl
  · rfl

/-- **C59 fails.** `x` is shared by all threads: the second thread overwrites it between the write and the search of the first.  The first seed then gets the neighbours of the third, the small seed
next to it is not compared, and its size stays 10; with an uninterrupted schedule it is at most `1 + 1/2 + 1e-10`. -/
theorem C59_shared_point_false : ∃ ln, RealTree (recStore rSeeds) ln ∧
    (∃ ts, (∀ t, (runNbr (recStore rSeeds) ln rSize (uninterrupted ts) (NbrState.start rTodo)).todo t = []) ∧ ∃ sz N, (∀ fuel, N ≤ fuel →
      meshLipLoop (recStore rSeeds) (1 / 2) (runNbr (recStore rSeeds) ln rSize (uninterrupted ts) (NbrState.start rTodo)).nbr fuel rSize = some sz) ∧ sz 0 ≤ 1 + 1 / 2 + 1e-10) ∧
    ∃ ts, (∀ t, (runNbr (recStore rSeeds) ln rSize ts (NbrState.start rTodo)).todo t = []) ∧ ∃ sz, (∀ fuel, 1 ≤ fuel →
      meshLipLoop (recStore rSeeds) (1 / 2) (runNbr (recStore rSeeds) ln rSize ts (NbrState.start rTodo)).nbr fuel rSize = some sz) ∧ sz 0 = 10 := by
  obtain ⟨ln, -, hT⟩ := recTree false (xs := rSeeds) (by simp [rSeeds])
  have hnum : (recStore rSeeds).num = 3 := rfl
  have hpos : ∀ k, k < (recStore rSeeds).num → 0 ≤ rSize k := by intro k _; unfold rSize; split_ifs <;> norm_num
  have hnb := nbrLists_ok hT rfl hpos
  refine ⟨ln, hT, ⟨[0, 0, 1], ?_, ?_⟩, [0, 1, 0, 1, 0, 0], (rRun _ ln).2.2.2, rSize, ?_, rfl⟩
  · intro t
    simp [uninterrupted, runNbr, nbrStep, NbrState.start, rTodo, upd]
    split_ifs <;> simp_all
  · have hd : ∀ t, (runNbr (recStore rSeeds) ln rSize (uninterrupted [0, 0, 1]) (NbrState.start rTodo)).todo t = [] := by
      intro t
      simp [uninterrupted, runNbr, nbrStep, NbrState.start, rTodo, upd]
      split_ifs <;> simp_all
    have he := C59_neighbours_partial (recStore rSeeds) ln rSize rTodo (fun i hi => by
      rw [hnum] at hi
      interval_cases i
      · exact ⟨0, by simp [rTodo]⟩
      · exact ⟨0, by simp [rTodo]⟩
      · exact ⟨1, by simp [rTodo]⟩) [0, 0, 1] hd
    obtain ⟨sz, N, h1, h2, -, h4⟩ := meshLipLoop_ends (L := 1 / 2) (by norm_num) (nbr := (runNbr (recStore rSeeds) ln rSize (uninterrupted [0, 0, 1]) (NbrState.start rTodo)).nbr)
      (fun i hi => by obtain ⟨l, e, hl, -⟩ := hnb i hi; exact ⟨l, by rw [he i hi, e], hl⟩) hpos
    refine ⟨sz, N, h1, ?_⟩
    obtain ⟨l, el, -, -, hl⟩ := hnb 0 (by rw [hnum]; omega)
    have := h4 0 (by rw [hnum]; omega) l (by rw [he 0 (by rw [hnum]; omega), el]) 1 (hl 1 (by rw [hnum]; omega) (by
      rw [rPt 0 (by omega), rPt 1 (by omega), rDist]; norm_num [rSize]))
    unfold PairOK at this
    rw [rPt 0 (by omega), rPt 1 (by omega), rDist] at this
    have h5 : sz 1 ≤ 1 := (h2 1).trans (by norm_num [rSize])
    norm_num at this ⊢
    linarith
  · intro fuel hf
    refine meshLipLoop_ok (fun i hi => ?_) hf
    obtain ⟨e0, e1, e2, -⟩ := rRun (recStore rSeeds) ln
    have hi' : i < 3 := hi
    interval_cases i
    · obtain ⟨l, el, -, h2, -⟩ := C08_in_sphere_sound_complete (recStore rSeeds) ln hT (fun _ => true) ((recStore rSeeds).pts 2) (2 * rSize 0) (by norm_num [rSize])
      refine ⟨l, by rw [e0, el], fun j hj => ⟨(h2 j hj).1, ?_⟩⟩
      obtain ⟨g1, -, g2⟩ := h2 j hj
      have hj' : j < 3 := g1
      have g2' : euclidSq 3 ((recStore rSeeds).pts 2) ((recStore rSeeds).pts j) < _ := g2
      unfold euclidSq at g2'
      rw [← euclid_sq, rPt 2 (by omega), rPt j hj', rDist] at g2'
      unfold PairOK
      rw [rPt 0 (by omega), rPt j hj', rDist]
      interval_cases j
      · norm_num [rSize] at g2'
      · norm_num [rSize] at g2'
      · norm_num [rSize]
    all_goals
      obtain ⟨l, el, h1, h2, -⟩ := hnb _ hi
      first
      | refine ⟨l, by rw [e1, el], fun j hj => ⟨h1 j hj, ?_⟩⟩
      | refine ⟨l, by rw [e2, el], fun j hj => ⟨h1 j hj, ?_⟩⟩
      have hj' : j < 3 := h1 j hj
      unfold PairOK
      rw [rPt _ (by omega), rPt j hj', rDist]
      interval_cases j <;> norm_num [rSize]

end VoroCrust
